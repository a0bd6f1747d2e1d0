import Verif.SockOpt

/-!
# Properties of socket options (C48)
-/

set_option linter.unusedSimpArgs false

namespace Verif.SockOpt

/-! ## Specification -/

/-- The options that can be set. -/
inductive Opt
  | nodelay | linger | keepalive | reuseport | reuseaddr | sndbuf | rcvbuf
  deriving DecidableEq, Repr

/-- Their level and number in the API. -/
def Opt.code : Opt → Int × Int
  | .nodelay => (6, 1)
  | .linger => (1, 13)
  | .keepalive => (1, 9)
  | .reuseport => (1, 15)
  | .reuseaddr => (1, 2)
  | .sndbuf => (1, 7)
  | .rcvbuf => (1, 8)

/-- Buffer sizes are numbers, the others are on or off. -/
def Opt.norm : Opt → Int → Int
  | .sndbuf, v => v
  | .rcvbuf, v => v
  | _, v => if v = 0 then 0 else 1

/-- Values of a new socket. -/
def Opt.start : Opt → Int
  | .sndbuf => 131070
  | .rcvbuf => 262140
  | _ => 0

/-- For each socket and option, what was last set. -/
abbrev Spec := Nat → Opt → Int

/-- Setting one option of one socket. -/
def Spec.put (A : Spec) (h : Nat) (o : Opt) (v : Int) : Spec := fun h' o' => if h' = h ∧ o' = o then o.norm v else A h' o'

/-- A new socket. -/
def Spec.fresh (A : Spec) (h : Nat) : Spec := fun h' o' => if h' = h then o'.start else A h' o'

/-- The socket a descriptor designates. -/
def sockOf (s : State) (fd : Int) : Option Nat :=
  if fd < 0 ∨ fd ≥ 1024 then none else match s.fds fd.toNat with | some (.sock h) => some h | _ => none

/-- After an operation with this return value. -/
def Spec.after (A : Spec) (s : State) : Op → Ret → Spec
  | .set fd level o v _, .ok _ =>
    match sockOf s fd with
    | none => A
    | some h => fun h' o' => if h' = h ∧ o'.code = (level, o) then o'.norm v else A h' o'
  | .socket h _ _ _, .ok _ => A.fresh h
  | _, _ => A

/-- Histories with what was last set. -/
inductive Reach : State → Spec → Prop
  | init : Reach init (fun _ o => o.start)
  | step {s A op} : Reach s A → Reach (step s op).1 (A.after s op (step s op).2.1)

/-! ## Invariant -/

/-- The value of an option in a handle. -/
def val (x : Handle) : Opt → Int
  | .nodelay => flag x.tcp 0x2
  | .linger => flag x.opts 0x2000
  | .keepalive => flag x.opts 0x200
  | .reuseport => flag x.opts 0x8000
  | .reuseaddr => flag x.opts 0x4
  | .sndbuf => x.sndbuf
  | .rcvbuf => x.rcvbuf

theorem bit_and {w : BitVec 32} {i : Nat} (hi : i < 32) : (1#32 <<< i) &&& w = 1#32 <<< i ↔ w.getLsbD i = true := by
  constructor
  · intro h
    have := congrArg (fun x : BitVec 32 => x.getLsbD i) h
    simpa [hi] using this
  · intro h
    apply BitVec.eq_of_getLsbD_eq
    intro k hk
    rw [BitVec.getLsbD_and]
    by_cases e : k = i
    · subst e; rw [h, Bool.and_true]
    · have : (1#32 <<< i).getLsbD k = false := by
        simp only [BitVec.getLsbD_shiftLeft, hk, decide_true, Bool.true_and]
        by_cases hl : k < i
        · simp [hl]
        · have : k - i ≠ 0 := by omega
          simp [hl, BitVec.getLsbD_one, this]
      rw [this, Bool.false_and]

theorem flag_bit (w : BitVec 32) {i : Nat} (hi : i < 32) : flag w (1#32 <<< i) = if w.getLsbD i then 1 else 0 := by
  unfold flag
  by_cases h : w.getLsbD i = true
  · rw [if_pos ((bit_and hi).2 h), if_pos h]
  · rw [if_neg (fun e => h ((bit_and hi).1 e)), if_neg h]

theorem one_shl_getLsb {i j : Nat} (_hi : i < 32) (hj : j < 32) : (1#32 <<< i).getLsbD j = decide (i = j) := by
  simp only [BitVec.getLsbD_shiftLeft, hj, decide_true, Bool.true_and]
  by_cases hl : j < i
  · simp [hl]; omega
  · by_cases e : i = j
    · simp [e]
    · have : j - i ≠ 0 := by omega
      simp [hl, BitVec.getLsbD_one, this, e]

/-- Setting a flag changes that flag only. -/
theorem flag_set (w : BitVec 32) (v : Int) {i j : Nat} (hi : i < 32) (hj : j < 32) :
    flag (setFlag w (1#32 <<< i) v) (1#32 <<< j) = if i = j then (if v = 0 then 0 else 1) else flag w (1#32 <<< j) := by
  rw [flag_bit _ hj, flag_bit _ hj]
  unfold setFlag
  by_cases hv : v = 0
  · rw [if_neg (c := v ≠ 0) (fun h => h hv)]
    simp only [BitVec.getLsbD_and, BitVec.getLsbD_not, one_shl_getLsb hi hj, hj, decide_true, Bool.true_and]
    by_cases e : i = j <;> simp [e, hv]
  · rw [if_pos hv]
    simp only [BitVec.getLsbD_or, one_shl_getLsb hi hj]
    by_cases e : i = j <;> simp [e, hv]

theorem val_bit (x : Handle) : val x = fun
    | .nodelay => flag x.tcp (1#32 <<< 1)
    | .linger => flag x.opts (1#32 <<< 13)
    | .keepalive => flag x.opts (1#32 <<< 9)
    | .reuseport => flag x.opts (1#32 <<< 15)
    | .reuseaddr => flag x.opts (1#32 <<< 2)
    | .sndbuf => x.sndbuf
    | .rcvbuf => x.rcvbuf := by
  funext o; cases o <;> rfl

/-- `getsockopt` of a settable option. -/
theorem getOpt_code (x : Handle) (o : Opt) : getOpt x o.code.1 o.code.2 = (x, .ok 0, val x o) := by
  cases o <;> rfl

theorem ite_cases {α β} {q : Prop} [Decidable q] {P : α × β → Prop} {a b : α × β} (ha : P a) (hb : P b) : P (if q then a else b) := by
  split
  · exact ha
  · exact hb

/-- `getsockopt` changes no settable option. -/
theorem getOpt_val (x : Handle) (level o : Int) : val (getOpt x level o).1 = val x := by
  have : (getOpt x level o).1 = x ∨ (getOpt x level o).1 = { x with errno := 0 } := by
    unfold getOpt
    cases optBit o with
    | none => exact .inl rfl
    | some b =>
      simp only
      by_cases h1 : level = solUdp
      · rw [if_pos h1]; exact .inl rfl
      rw [if_neg h1]
      by_cases h2 : level = solTcp
      · rw [if_pos h2]
        by_cases h3 : o = tcpNodelay
        · rw [if_pos h3]; exact .inl rfl
        · rw [if_neg h3]; exact .inl rfl
      rw [if_neg h2]
      by_cases h3 : level = solSocket
      · rw [if_pos h3]
        repeat' (first | exact .inl rfl | exact .inr rfl | refine ite_cases (P := fun r => r.1 = x ∨ r.1 = { x with errno := 0 }) ?_ ?_)
      · rw [if_neg h3]; exact .inl rfl
  rcases this with e | e
  · rw [e]
  · rw [e]; funext p; cases p <;> rfl

/-- `setsockopt`: a success sets the one option named, a failure nothing. -/
def SetGood (x : Handle) (level o v : Int) (r : Handle × Ret) : Prop :=
  (∃ w, r.2 = .ok w ∧ ∀ p, val r.1 p = if p.code = (level, o) then p.norm v else val x p) ∨
    ((∀ w, r.2 ≠ .ok w) ∧ r.1 = x)

theorem setOpt_val (x : Handle) (level o v : Int) (host : Option Errno) : SetGood x level o v (setOpt x level o v host) := by
  unfold setOpt
  split
  · exact .inr ⟨fun w e => by (cases e), rfl⟩
  split
  · rename_i h1 h2
    split
    · rename_i h3
      subst h2 h3
      rw [show optBit tcpNodelay = some (1#32 <<< 1) from rfl]
      simp only
      split
      · exact .inr ⟨fun w e => by (cases e), rfl⟩
      · refine .inl ⟨0, rfl, fun p => ?_⟩
        rw [val_bit, val_bit]
        cases p <;> first | rfl | exact (flag_set _ _ (by omega) (by omega)).trans (by simp [Opt.code, solTcp, tcpNodelay, Opt.norm])
    · exact .inr ⟨fun w e => by (cases e), rfl⟩
  split
  · rename_i h1 h2 h3
    subst h3
    split
    · exact .inr ⟨fun w e => by (cases e), rfl⟩
    · rename_i b hb
      split
      · exact .inr ⟨fun w e => by (cases e), rfl⟩
      split
      · rename_i h5
        refine .inl ⟨0, rfl, fun p => ?_⟩
        rw [val_bit, val_bit]
        rcases h5 with rfl | rfl
        · have : b = 1#32 <<< 13 := (Option.some.inj (hb.symm.trans (show optBit soLinger = some (1#32 <<< 13) from rfl)))
          subst this
          cases p <;> first | rfl | exact (flag_set _ _ (by omega) (by omega)).trans (by simp [Opt.code, solSocket, soLinger, Opt.norm])
        · have : b = 1#32 <<< 9 := (Option.some.inj (hb.symm.trans (show optBit soKeepalive = some (1#32 <<< 9) from rfl)))
          subst this
          cases p <;> first | rfl | exact (flag_set _ _ (by omega) (by omega)).trans (by simp [Opt.code, solSocket, soKeepalive, Opt.norm])
      split
      · rename_i h6
        split
        · exact .inr ⟨fun w e => by (cases e), rfl⟩
        · refine .inl ⟨0, rfl, fun p => ?_⟩
          rw [val_bit, val_bit]
          rcases h6 with rfl | rfl
          · have : b = 1#32 <<< 15 := (Option.some.inj (hb.symm.trans (show optBit soReuseport = some (1#32 <<< 15) from rfl)))
            subst this
            cases p <;> first | rfl | exact (flag_set _ _ (by omega) (by omega)).trans (by simp [Opt.code, solSocket, soReuseport, Opt.norm])
          · have : b = 1#32 <<< 2 := (Option.some.inj (hb.symm.trans (show optBit soReuseaddr = some (1#32 <<< 2) from rfl)))
            subst this
            cases p <;> first | rfl | exact (flag_set _ _ (by omega) (by omega)).trans (by simp [Opt.code, solSocket, soReuseaddr, Opt.norm])
      split
      · rename_i h7
        subst h7
        refine .inl ⟨0, rfl, fun p => ?_⟩
        cases p <;> rfl
      split
      · rename_i h8
        subst h8
        refine .inl ⟨0, rfl, fun p => ?_⟩
        cases p <;> rfl
      split
      · rename_i h9
        subst h9
        split
        · exact .inr ⟨fun w e => by (cases e), rfl⟩
        · refine .inl ⟨0, rfl, fun p => ?_⟩
          cases p <;> rfl
      · exact .inr ⟨fun w e => by (cases e), rfl⟩
  · exact .inr ⟨fun w e => by (cases e), rfl⟩

/-- Values of a new handle. -/
theorem mkHandle_val (t : Int) (nb ce : Bool) (o : Opt) : val (mkHandle t nb ce) o = o.start := by
  cases o <;> simp only [val, mkHandle, Opt.start] <;> revert nb ce <;> decide

def Inv (s : State) (A : Spec) : Prop := ∀ h x, s.hs h = some x → ∀ o, val x o = A h o

theorem onSock_cases (s : State) (fd : Int) (f : Nat → Handle → State × Ret × Int) :
    (∃ r, onSock s fd f = (s, r, 0) ∧ ∀ w, r ≠ .ok w) ∨
      ∃ h x, sockOf s fd = some h ∧ s.hs h = some x ∧ onSock s fd f = f h x := by
  unfold onSock sockOf
  split
  · exact .inl ⟨_, rfl, fun w e => by cases e⟩
  · rename_i hr
    rw [if_neg (by simpa [maxFd] using hr)]
    split
    · exact .inl ⟨_, rfl, fun w e => by cases e⟩
    · exact .inl ⟨_, rfl, fun w e => by cases e⟩
    · rename_i h hd
      split
      · exact .inl ⟨_, rfl, fun w e => by cases e⟩
      · rename_i x hx
        exact .inr ⟨h, x, by rw [hd], hx, rfl⟩

theorem Inv.step {s : State} {A : Spec} (hi : Inv s A) (op : Op) : Inv (step s op).1 (A.after s op (step s op).2.1) := by
  cases op with
  | set fd level o v host =>
    simp only [SockOpt.step]
    rcases onSock_cases s fd (fun h x => ({ s with hs := upd s.hs h (some (setOpt x level o v host).1) },
        (setOpt x level o v host).2, 0)) with ⟨r, e, hne⟩ | ⟨h, x, h1, h2, e⟩
    · rw [e]
      have : A.after s (.set fd level o v host) r = A := by
        cases r with
        | ok w => exact absurd rfl (hne w)
        | _ => rfl
      rw [this]; exact hi
    · rw [e]
      simp only
      rcases setOpt_val x level o v host with ⟨w, e1, e2⟩ | ⟨e1, e2⟩
      · rw [e1]
        simp only [Spec.after, h1]
        intro h' y hy p
        simp only [upd_apply] at hy
        by_cases eh : h' = h
        · subst eh
          rw [if_pos rfl] at hy
          cases hy
          simp only [e2, true_and]
          rw [hi h' x h2 p]
        · rw [if_neg eh] at hy
          simp only [eh, false_and, if_false]
          exact hi h' y hy p
      · have : A.after s (.set fd level o v host) (setOpt x level o v host).2 = A := by
          cases hr : (setOpt x level o v host).2 with
          | ok w => exact absurd hr (e1 w)
          | _ => rfl
        rw [this, e2]
        intro h' y hy p
        simp only [upd_apply] at hy
        by_cases eh : h' = h
        · subst eh; rw [if_pos rfl] at hy; cases hy; exact hi h' x h2 p
        · rw [if_neg eh] at hy; exact hi h' y hy p
  | get fd level o =>
    have : ∀ r, A.after s (.get fd level o) r = A := fun r => by cases r <;> rfl
    rw [this]
    simp only [SockOpt.step]
    rcases onSock_cases s fd (fun h x => ({ s with hs := upd s.hs h (some (getOpt x level o).1) },
        (getOpt x level o).2.1, (getOpt x level o).2.2)) with ⟨r, e, hne⟩ | ⟨h, x, h1, h2, e⟩
    · rw [e]; exact hi
    · rw [e]
      intro h' y hy p
      simp only [upd_apply] at hy
      by_cases eh : h' = h
      · subst eh; rw [if_pos rfl] at hy; cases hy; rw [getOpt_val]; exact hi h' x h2 p
      · rw [if_neg eh] at hy; exact hi h' y hy p
  | socket h t nb ce =>
    simp only [SockOpt.step]
    cases hx : s.hs h with
    | some x => exact hi
    | none =>
      intro h' y hy p
      simp only [upd_apply] at hy
      simp only [Spec.after, Spec.fresh]
      by_cases eh : h' = h
      · subst eh; rw [if_pos rfl] at hy; cases hy; rw [if_pos rfl]; exact mkHandle_val t nb ce p
      · rw [if_neg eh] at hy ⊢; exact hi h' y hy p
  | place fd d => exact hi
  | env h l i e =>
    simp only [SockOpt.step]
    cases hx : s.hs h with
    | none => exact hi
    | some x =>
      intro h' y hy p
      simp only [upd_apply] at hy
      by_cases eh : h' = h
      · subst eh
        rw [if_pos rfl] at hy; cases hy
        have : val { x with listening := l, inner := i, errno := e } p = val x p := by cases p <;> rfl
        rw [this]; exact hi h' x hx p
      · rw [if_neg eh] at hy; exact hi h' y hy p

theorem Reach.inv {s : State} {A : Spec} (h : Reach s A) : Inv s A := by
  induction h with
  | init => intro h x hx; cases hx
  | step _ ih => exact ih.step _

/-! ## C48 -/

/-- **C48.**  After any history, `getsockopt` of a settable option through any descriptor of a socket gives what was last
set for that option of that socket (by whichever descriptor), or the initial value. -/
theorem round_trip {s : State} {A : Spec} (hr : Reach s A) {fd : Int} {h : Nat} (hfd : sockOf s fd = some h) (hx : s.hs h ≠ none)
    (o : Opt) : (step s (.get fd o.code.1 o.code.2)).2 = (.ok 0, A h o) := by
  obtain ⟨x, hx⟩ := Option.ne_none_iff_exists'.1 hx
  simp only [step]
  rcases onSock_cases s fd (fun h x => ({ s with hs := upd s.hs h (some (getOpt x o.code.1 o.code.2).1) },
      (getOpt x o.code.1 o.code.2).2.1, (getOpt x o.code.1 o.code.2).2.2)) with ⟨r, e, hne⟩ | ⟨h', x', h1, h2, e⟩
  · exfalso
    unfold sockOf at hfd
    unfold onSock at e
    split at hfd
    · cases hfd
    · rename_i hr
      rw [if_neg (by simpa [maxFd] using hr)] at e
      split at hfd
      · rename_i h' hd
        cases hfd
        simp only [hd, hx, getOpt_code] at e
        exact hne 0 (congrArg (fun p => p.2.1) e).symm
      · cases hfd
  · rw [h1] at hfd; cases hfd
    rw [hx] at h2; cases h2
    rw [e]
    simp only [getOpt_code, hr.inv _ x hx o]

/-- **C48**, settable options only (see `cloexec_violated` for the others).  A new socket has every settable flag off and the default buffer sizes. -/
theorem initially_off_partial {s : State} {A : Spec} (hr : Reach s A) {h : Nat} (t : Int) (nb ce : Bool) (hn : s.hs h = none) {fd : Nat}
    (hfd : fd < 1024) (o : Opt) :
    (step (step (step s (.socket h t nb ce)).1 (.place fd (some (.sock h)))).1 (.get fd o.code.1 o.code.2)).2
      = (.ok 0, o.start) := by
  have h1 := (hr.step (op := .socket h t nb ce)).step (op := .place fd (some (.sock h)))
  have := round_trip h1 (fd := fd) (h := h) (by simp [sockOf, step, hn]; omega) (by simp [step, hn]) o
  rw [this]
  simp [step, hn, Spec.after, Spec.fresh]

/-- **C48.**  Setting one option changes no other, of that socket or another. -/
theorem set_other {s : State} {A : Spec} (hr : Reach s A) {fd fd' level o v : Int} {host : Option Errno} {h h' : Nat}
    (hfd : sockOf s fd = some h) (hfd' : sockOf s fd' = some h') (hx : s.hs h' ≠ none) (p : Opt)
    (hne : h' ≠ h ∨ p.code ≠ (level, o)) :
    (step (step s (.set fd level o v host)).1 (.get fd' p.code.1 p.code.2)).2 = (step s (.get fd' p.code.1 p.code.2)).2 := by
  have hs' : (step s (.set fd level o v host)).1.fds = s.fds ∧ ((step s (.set fd level o v host)).1.hs h' ≠ none) := by
    simp only [step]
    rcases onSock_cases s fd (fun h x => ({ s with hs := upd s.hs h (some (setOpt x level o v host).1) },
        (setOpt x level o v host).2, 0)) with ⟨r, e, -⟩ | ⟨k, x, -, -, e⟩
    · rw [e]; exact ⟨rfl, hx⟩
    · rw [e]
      refine ⟨rfl, ?_⟩
      simp only [upd_apply]; split
      · simp
      · exact hx
  have hk : sockOf (step s (.set fd level o v host)).1 fd' = some h' := by
    unfold sockOf at *; rw [hs'.1]; exact hfd'
  rw [round_trip (hr.step) hk hs'.2 p, round_trip hr hfd' hx p]
  have : A.after s (.set fd level o v host) (step s (.set fd level o v host)).2.1 h' p = A h' p := by
    cases (step s (.set fd level o v host)).2.1 with
    | ok w =>
      simp only [Spec.after, hfd]
      rw [if_neg]
      rintro ⟨e3, e4⟩
      rcases hne with e | e
      · exact e e3
      · exact e e4
    | _ => rfl
  rw [this]

/-- **C48.**  A successful `setsockopt` of a settable option is what `getsockopt` then gives. -/
theorem set_get {s : State} {A : Spec} (hr : Reach s A) {fd fd' v w : Int} {host : Option Errno} {h : Nat}
    (hfd : sockOf s fd = some h) (hfd' : sockOf s fd' = some h) (hx : s.hs h ≠ none) (p : Opt)
    (hok : (step s (.set fd p.code.1 p.code.2 v host)).2.1 = .ok w) :
    (step (step s (.set fd p.code.1 p.code.2 v host)).1 (.get fd' p.code.1 p.code.2)).2 = (.ok 0, p.norm v) := by
  have hs' : (step s (.set fd p.code.1 p.code.2 v host)).1.fds = s.fds ∧
      ((step s (.set fd p.code.1 p.code.2 v host)).1.hs h ≠ none) := by
    simp only [step]
    rcases onSock_cases s fd (fun h x => ({ s with hs := upd s.hs h (some (setOpt x p.code.1 p.code.2 v host).1) },
        (setOpt x p.code.1 p.code.2 v host).2, 0)) with ⟨r, e, -⟩ | ⟨k, x, -, -, e⟩
    · rw [e]; exact ⟨rfl, hx⟩
    · rw [e]
      refine ⟨rfl, ?_⟩
      simp only [upd_apply]; split
      · simp
      · exact hx
  have hk : sockOf (step s (.set fd p.code.1 p.code.2 v host)).1 fd' = some h := by
    unfold sockOf at *; rw [hs'.1]; exact hfd'
  rw [round_trip (hr.step) hk hs'.2 p, hok]
  simp only [Spec.after, hfd]
  rw [if_pos (by simp)]

/-- **C48.**  If the host does not object, setting a settable option of a socket succeeds. -/
theorem set_ok (x : Handle) (o : Opt) (v : Int) : (setOpt x o.code.1 o.code.2 v none).2 = .ok 0 := by
  cases o <;> simp only [setOpt, Opt.code, solUdp, solTcp, solSocket, tcpNodelay, optBit, soAcceptconn, soType, soSndlowat,
    soRcvlowat, soLinger, soKeepalive, soReuseport, soReuseaddr, soSndbuf, soRcvbuf, ite_self] <;> simp

/-- **C48.**  Reading `SO_ERROR` gives the recorded error once. -/
theorem error_once (x : Handle) : (getOpt x 1 4).2 = (.ok 0, x.errno) ∧ (getOpt (getOpt x 1 4).1 1 4).2 = (.ok 0, 0) := by
  constructor <;> rfl

/-! ## Example -/

def demoOps : List Op :=
  [.socket 0 1 false false, .place 3 (some (.sock 0)), .place 4 (some (.sock 0)), .set 3 1 9 1 none, .set 4 1 7 4096 none,
   .env 0 false true 0, .set 3 1 2 5 (some .EINVAL), .set 3 6 1 1 none, .set 4 1 9 0 none]

def demo : State := demoOps.foldl (fun s op => (step s op).1) init

def foldBoth (s : State) (A : Spec) : List Op → State × Spec
  | [] => (s, A)
  | op :: r => foldBoth (step s op).1 (A.after s op (step s op).2.1) r

theorem reach_fold {s : State} {A : Spec} (h : Reach s A) (ops : List Op) : Reach (foldBoth s A ops).1 (foldBoth s A ops).2 := by
  induction ops generalizing s A with
  | nil => exact h
  | cons op r ih => exact ih h.step

/-- A socket with two descriptors: keepalive was set and cleared again, the send buffer was set through the other descriptor,
address reuse was refused by the host, no-delay is on. -/
example : Reach (foldBoth init (fun _ o => o.start) demoOps).1 (foldBoth init (fun _ o => o.start) demoOps).2 := reach_fold .init _

example :
    let d := foldBoth init (fun _ o => o.start) demoOps
    d.2 0 .keepalive = 0 ∧ d.2 0 .sndbuf = 4096 ∧ d.2 0 .reuseaddr = 0 ∧ d.2 0 .nodelay = 1 ∧
      sockOf d.1 4 = some 0 ∧ (step d.1 (.get 4 6 1)).2 = (.ok 0, 1) ∧ (step d.1 (.get 3 1 7)).2 = (.ok 0, 4096) := by
  decide +kernel

/-! ## Violations -/

/-- **C48 fails.**  A new socket made with `SOCK_CLOEXEC` reports `SO_SNDLOWAT` as on, because the descriptor's flags are
stored as its options; one made without reports it as off. -/
theorem cloexec_violated :
    (getOpt (mkHandle 1 false true) 1 19).2 = (.ok 0, 1) ∧ (getOpt (mkHandle 1 false false) 1 19).2 = (.ok 0, 0) := by
  decide +kernel

/-- An option number of 32 or more, or below 0, aborts the program (shift overflow), for `getsockopt` at any level. -/
theorem bad_option_violated (x : Handle) (level o : Int) (h : o < 0 ∨ 32 ≤ o) : (getOpt x level o).2.1 = .panic := by
  have : optBit o = none := by unfold optBit; rw [if_neg (by omega)]
  simp only [getOpt, this]

end Verif.SockOpt
