import Verif.PollProps

/-!
# epoll: C44
-/

set_option linter.unusedSimpArgs false

namespace Verif.Select

/-! ## Specification -/

/-- The registrations of an epoll descriptor as a partial map. -/
abbrev Table := Nat → Option Ev

def Table.set (t : Table) (fd : Nat) (e : Option Ev) : Table := fun d => if d = fd then e else t d

/-- What is found at a descriptor that cannot be registered. -/
def refusal : Option View → Option Errno
  | none => some .EBADF
  | some .epoll => some .EBADF
  | some .file => some .EPERM
  | some _ => none

/-- ADD (1) inserts what is not there, MOD (3) replaces what is there, DEL (2) removes what is there. -/
def ctlSpec (t : Table) (epfd op fd : Int) (target : Option View) (ev : Ev) : Table × Ret :=
  if fd < 0 ∨ fd ≥ 1024 then (t, .err .EBADF)
  else if fd = epfd then (t, .err .EINVAL)
  else
    match refusal target with
    | some e => (t, .err e)
    | none =>
      if op = 1 then (if (t fd.toNat).isSome then (t, .err .EEXIST) else (t.set fd.toNat (some ev), .ok 0))
      else if op = 3 then (if (t fd.toNat).isSome then (t.set fd.toNat (some ev), .ok 0) else (t, .err .ENOENT))
      else if op = 2 then (if (t fd.toNat).isSome then (t.set fd.toNat none, .ok 0) else (t, .err .ENOENT))
      else (t, .err .EINVAL)

/-- The arguments of a call and what is found at its descriptor. -/
structure Ctl where
  op : Int
  fd : Int
  target : Option View
  ev : Ev

def specRun (epfd : Int) : Table → List Ctl → Table × List Ret
  | t, [] => (t, [])
  | t, c :: cs =>
    let (t1, r) := ctlSpec t epfd c.op c.fd c.target c.ev
    let (t2, rs) := specRun epfd t1 cs
    (t2, r :: rs)

/-- The same history on the model. -/
def run (epfd : Int) : EpSlot → List Ctl → EpSlot × List Ret
  | s, [] => (s, [])
  | s, c :: cs =>
    let (s1, r) := epollCtl s epfd c.op c.fd c.target c.ev
    let (s2, rs) := run epfd s1 cs
    (s2, r :: rs)

/-! ## The map -/

def Keys (m : Reg) : Prop := (m.map (·.1)).Nodup

theorem get_del (m : Reg) (fd d : Nat) : (m.del fd).get d = if d = fd then none else m.get d := by
  induction m with
  | nil => simp [Reg.get, Reg.del]
  | cons x m ih =>
    simp only [Reg.get, Reg.del, List.filter_cons, List.find?_cons] at ih ⊢
    by_cases h1 : x.1 = fd
    · by_cases h2 : d = fd
      · simp [h1, h2]
      · have h3 : ¬ fd = d := fun e => h2 e.symm
        simp [h1, h2] at ih ⊢
        have h4 : (fd == d) = false := by simpa using h3
        rw [h4]; exact ih
    · have h5 : (x.1 != fd) = true := by simpa using h1
      rw [if_pos h5]
      simp only [List.find?_cons]
      by_cases h6 : x.1 = d
      · have : ¬ d = fd := fun e => h1 (h6.trans e)
        simp [h6, this]
      · have h7 : (x.1 == d) = false := by simpa using h6
        rw [h7]; exact ih

theorem get_put (m : Reg) (fd d : Nat) (e : Ev) : (m.put fd e).get d = if d = fd then some e else m.get d := by
  by_cases h : d = fd
  · subst h; simp [Reg.put, Reg.get]
  · have h1 : (fd == d) = false := by simpa using fun e => h e.symm
    have := get_del m fd d
    simp only [Reg.get, Reg.put, List.find?_cons, h1, if_neg h] at this ⊢
    exact this

theorem keys_filter {m : Reg} (f : Nat × Ev → Bool) (h : Keys m) : Keys (m.filter f) :=
  h.sublist (List.filter_sublist.map _)

theorem keys_put {m : Reg} {fd : Nat} {e : Ev} (h : Keys m) : Keys (m.put fd e) := by
  simp only [Keys, Reg.put, List.map_cons, List.nodup_cons]
  refine ⟨?_, keys_filter _ h⟩
  simp [Reg.del]

theorem get_mem {m : Reg} {fd : Nat} {e : Ev} (h : m.get fd = some e) : (fd, e) ∈ m := by
  simp only [Reg.get, Option.map_eq_some_iff] at h
  obtain ⟨⟨a, b⟩, h1, h2⟩ := h
  have h3 := List.find?_some h1
  simp at h3 h2
  subst h3; subst h2
  exact List.mem_of_find?_eq_some h1

theorem mem_get {m : Reg} {fd : Nat} {e : Ev} (hk : Keys m) (h : (fd, e) ∈ m) : m.get fd = some e := by
  induction m with
  | nil => cases h
  | cons x m ih =>
    simp only [Keys, List.map_cons, List.nodup_cons] at hk
    simp only [Reg.get, List.find?_cons]
    rcases List.mem_cons.1 h with rfl | h
    · simp
    · have : (x.1 == fd) = false := by
        simp only [beq_eq_false_iff_ne, ne_eq]
        intro e1
        exact hk.1 (List.mem_map.2 ⟨_, h, e1.symm⟩)
      rw [this]
      exact ih hk.2 h

/-! ## C44: control -/

/-- C44.  Each control call does to the registrations what the map operation does, and answers as it does. -/
theorem ctl_spec {m : Reg} {epfd op fd : Int} {target : Option View} {ev : Ev} (h0 : 0 ≤ epfd) (h1 : epfd < 1024) :
    ∃ m', (epollCtl (.epoll m) epfd op fd target ev).1 = .epoll m' ∧
      (m'.get, (epollCtl (.epoll m) epfd op fd target ev).2) = ctlSpec m.get epfd op fd target ev ∧
      (Keys m → Keys m') := by
  have ha : ¬ (epfd < 0 ∨ epfd ≥ 1024) := by omega
  simp only [epollCtl, maxFd, ha, if_false, ctlSpec]
  by_cases hf : fd < 0 ∨ fd ≥ 1024
  · simp only [hf, if_true]; exact ⟨m, rfl, rfl, id⟩
  by_cases hs : fd = epfd
  · simp only [if_neg hf, if_pos hs]; exact ⟨m, rfl, rfl, id⟩
  simp only [if_neg hf, if_neg hs]
  have body : ∃ m', (if op = 2 then
            match m.get fd.toNat with
            | none => (EpSlot.epoll m, Ret.err .ENOENT)
            | some _ => (.epoll (m.del fd.toNat), .ok 0)
          else if op = 3 then
            match m.get fd.toNat with
            | none => (.epoll m, .err .ENOENT)
            | some _ => (.epoll (m.put fd.toNat ev), .ok 0)
          else if op = 1 then
            match m.get fd.toNat with
            | some _ => (.epoll m, .err .EEXIST)
            | none => (.epoll (m.put fd.toNat ev), .ok 0)
          else (.epoll m, .err .EINVAL)).1 = .epoll m' ∧
      (m'.get, (if op = 2 then
            match m.get fd.toNat with
            | none => (EpSlot.epoll m, Ret.err .ENOENT)
            | some _ => (.epoll (m.del fd.toNat), .ok 0)
          else if op = 3 then
            match m.get fd.toNat with
            | none => (.epoll m, .err .ENOENT)
            | some _ => (.epoll (m.put fd.toNat ev), .ok 0)
          else if op = 1 then
            match m.get fd.toNat with
            | some _ => (.epoll m, .err .EEXIST)
            | none => (.epoll (m.put fd.toNat ev), .ok 0)
          else (.epoll m, .err .EINVAL)).2) =
      (if op = 1 then (if (m.get fd.toNat).isSome then (m.get, .err .EEXIST) else (Table.set m.get fd.toNat (some ev), .ok 0))
      else if op = 3 then (if (m.get fd.toNat).isSome then (Table.set m.get fd.toNat (some ev), .ok 0) else (m.get, .err .ENOENT))
      else if op = 2 then (if (m.get fd.toNat).isSome then (Table.set m.get fd.toNat none, .ok 0) else (m.get, .err .ENOENT))
      else (m.get, .err .EINVAL)) ∧ (Keys m → Keys m') := by
    have ep : (m.put fd.toNat ev).get = Table.set m.get fd.toNat (some ev) := by funext d; rw [get_put]; rfl
    have ed : (m.del fd.toNat).get = Table.set m.get fd.toNat none := by funext d; rw [get_del]; rfl
    by_cases o2 : op = 2
    · subst o2
      cases hg : m.get fd.toNat with
      | none => exact ⟨m, by simp, by simp, id⟩
      | some e => exact ⟨m.del fd.toNat, by simp, by simp [ed], keys_filter _⟩
    by_cases o3 : op = 3
    · subst o3
      cases hg : m.get fd.toNat with
      | none => exact ⟨m, by simp, by simp, id⟩
      | some e => exact ⟨m.put fd.toNat ev, by simp, by simp [ep], keys_put⟩
    by_cases o1 : op = 1
    · subst o1
      cases hg : m.get fd.toNat with
      | some e => exact ⟨m, by simp, by simp, id⟩
      | none => exact ⟨m.put fd.toNat ev, by simp, by simp [ep], keys_put⟩
    exact ⟨m, by simp [o1, o2, o3], by simp [o1, o2, o3], id⟩
  cases target with
  | none => exact ⟨m, rfl, rfl, id⟩
  | some v =>
    cases v with
    | file => exact ⟨m, rfl, rfl, id⟩
    | epoll => exact ⟨m, rfl, rfl, id⟩
    | stream => exact body
    | pipe p => exact body
    | unix u => exact body
    | inet a b => exact body
    | other => exact body

/-- C44.  So it is over every history of control calls, starting without registrations: the answers are those of the map. -/
theorem ctl_history {epfd : Int} (h0 : 0 ≤ epfd) (h1 : epfd < 1024) (cs : List Ctl) :
    ∃ m, (run epfd (.epoll []) cs).1 = .epoll m ∧ Keys m ∧
      (m.get, (run epfd (.epoll []) cs).2) = specRun epfd (fun _ => none) cs := by
  have main : ∀ (cs : List Ctl) (m : Reg), Keys m → ∃ m', (run epfd (.epoll m) cs).1 = .epoll m' ∧ Keys m' ∧
      (m'.get, (run epfd (.epoll m) cs).2) = specRun epfd m.get cs := by
    intro cs
    induction cs with
    | nil => intro m hm; exact ⟨m, rfl, hm, rfl⟩
    | cons c cs ih =>
      intro m hm
      obtain ⟨m1, a1, a2, a3⟩ := ctl_spec (m := m) (epfd := epfd) (op := c.op) (fd := c.fd) (target := c.target) (ev := c.ev) h0 h1
      obtain ⟨m2, b1, b2, b3⟩ := ih m1 (a3 hm)
      refine ⟨m2, ?_, b2, ?_⟩
      · simp only [run, a1, b1]
      · simp only [run, specRun, a1, ← a2, ← b3]
  exact main cs [] (by simp [Keys])

/-! ## C44: waiting -/

/-- The events asked for that the call looks at: reading 1, urgent data 2, writing 4. -/
theorem event_bits (e : BitVec 32) (r : BitVec 16)
    (hI : r &&& pollIn ≠ 0 → e &&& 1 ≠ 0) (hO : r &&& pollOut ≠ 0 → e &&& 4 ≠ 0) (hP : r &&& pollPri ≠ 0 → e &&& 2 ≠ 0) :
    ofPoll r &&& e = ofPoll r := by
  have bit : ∀ (e : BitVec 32) (k : Nat), e &&& (1#32 <<< k) ≠ 0 → (1#32 <<< k) &&& e = 1#32 <<< k := by
    intro e k h
    apply BitVec.eq_of_getLsbD_eq
    intro i hi
    simp only [BitVec.getLsbD_and]
    by_cases hk : (1#32 <<< k).getLsbD i = true
    · have hik : i = k := by
        simp only [BitVec.getLsbD_shiftLeft, BitVec.getLsbD_one] at hk
        simp at hk; omega
      subst hik
      rw [hk]
      simp only [Bool.true_and]
      cases he : e.getLsbD i with
      | true => rfl
      | false =>
        exfalso; apply h
        apply BitVec.eq_of_getLsbD_eq
        intro j hj
        simp only [BitVec.getLsbD_and, BitVec.getLsbD_zero, BitVec.ofNat_eq_ofNat]
        by_cases hji : j = i
        · subst hji; rw [he]; rfl
        · have : (1#32 <<< i).getLsbD j = false := by
            simp only [BitVec.getLsbD_shiftLeft, BitVec.getLsbD_one]
            simp; omega
          rw [this]; simp
    · simp only [Bool.not_eq_true] at hk; rw [hk]; rfl
  have b1 : e &&& 1 ≠ 0 → (1 : BitVec 32) &&& e = 1 := bit e 0
  have b2 : e &&& 2 ≠ 0 → (2 : BitVec 32) &&& e = 2 := bit e 1
  have b4 : e &&& 4 ≠ 0 → (4 : BitVec 32) &&& e = 4 := bit e 2
  have dist : ∀ a b c : BitVec 32, (a ||| b) &&& c = (a &&& c) ||| (b &&& c) := by
    intro a b c
    apply BitVec.eq_of_getLsbD_eq
    intro i hi
    simp only [BitVec.getLsbD_and, BitVec.getLsbD_or]
    cases a.getLsbD i <;> cases b.getLsbD i <;> cases c.getLsbD i <;> rfl
  unfold ofPoll
  rw [dist, dist]
  congr 1
  · congr 1
    · split
      · rename_i h; exact b1 (hI h)
      · exact BitVec.zero_and
    · split
      · rename_i h; exact b4 (hO h)
      · exact BitVec.zero_and
  · split
    · rename_i h; exact b2 (hP h)
    · exact BitVec.zero_and

theorem collect_ok {m : Reg} : ∀ {ys : List PollFd} {k : Nat} {es : List (Nat × Ev)}, 0 < k → collect m k ys = .ok es →
    es.length ≤ k ∧ (∀ e ∈ es, ∃ y ∈ ys, ∃ g, m.get e.1 = some g ∧ e.1 = y.fd.toNat ∧ e.2.data = g.data ∧
      e.2.events = ofPoll y.revents ∧ e.2.events ≠ 0) ∧ (es.map (·.1)).Sublist (ys.map (·.fd.toNat)) ∧
      (es = [] → ∀ y ∈ ys, ofPoll y.revents = 0) := by
  intro ys
  induction ys with
  | nil => intro k es _ h; cases h; simp
  | cons y ys ih =>
    intro k es hk h
    simp only [collect] at h
    split at h
    · cases h
    · rename_i g hg
      split at h
      · rename_i hne
        split at h
        · cases h
          refine ⟨by simp only [List.length_singleton]; omega, ?_, by simp, by simp⟩
          intro e he
          rw [List.mem_singleton.1 he]
          exact ⟨y, by simp, g, hg, rfl, rfl, rfl, hne⟩
        · rename_i hk1
          split at h
          · cases h
          · rename_i es' hrec
            cases h
            obtain ⟨a1, a2, a3, a4⟩ := ih (by omega) hrec
            refine ⟨by simp; omega, ?_, by simpa using a3, by simp⟩
            intro e he
            rcases List.mem_cons.1 he with rfl | he
            · exact ⟨y, by simp, g, hg, rfl, rfl, rfl, hne⟩
            · obtain ⟨y', hy', rest⟩ := a2 e he
              exact ⟨y', by simp [hy'], rest⟩
      · rename_i hne
        obtain ⟨a1, a2, a3, a4⟩ := ih hk h
        refine ⟨a1, fun e he => ?_, ?_, ?_⟩
        · obtain ⟨y', hy', rest⟩ := a2 e he
          exact ⟨y', by simp [hy'], rest⟩
        · simp only [List.map_cons]; exact a3.cons _
        · intro hz y' hy'
          rcases List.mem_cons.1 hy' with rfl | hy'
          · simpa using hne
          · exact a4 hz y' hy'

/-- A successful wait, step by step. -/
theorem wait_ok {m iter : Reg} {epfd maxevents : Int} {isOpen : Nat → Bool} {rs : List Round} {n : Int} {es : List (Nat × Ev)}
    {s : EpSlot} (h : epollWait (.epoll m) epfd maxevents iter isOpen rs = (s, .ok n, es)) :
    0 < maxevents ∧ n = es.length ∧ s = .epoll (m.filter fun e => isOpen e.1) ∧ ∃ k ys,
      poll ((iter.filter fun e => isOpen e.1).map fun e => { fd := e.1, events := toPoll e.2.events, revents := 0 }) rs = (.ok k, ys) ∧
      collect (m.filter fun e => isOpen e.1) maxevents.toNat ys = .ok es := by
  unfold epollWait at h
  split at h
  · cases h
  dsimp only at h
  split at h
  · cases h
  split at h
  · cases h
  split at h
  · rename_i k ys hp
    split at h
    · rename_i r hc
      exfalso
      cases h
      revert hc
      clear hp
      generalize maxevents.toNat = k
      generalize m.filter (fun e => isOpen e.1) = m'
      induction ys generalizing k with
      | nil => simp [collect]
      | cons y ys ih =>
        simp only [collect]
        split
        · simp
        · split
          · split
            · simp
            · split
              · rename_i e he; intro hh; cases hh; exact ih _ he
              · simp
          · exact ih _
    · rename_i es' hc
      cases h
      exact ⟨by omega, rfl, rfl, k, ys, hp, hc⟩
  · rename_i r ys hne hp
    cases h
    exact (hne _ rfl).elim

/-- Seen ready for reading, or writing, in some round. -/
def SeenRead (rs : List Round) (fd : Nat) : Prop :=
  ∃ r ∈ rs, ∃ j, ∃ p ∈ r.sees j, ∃ v, p.rd fd = some v ∧ CanRead p.host v
def SeenWrite (rs : List Round) (fd : Nat) : Prop :=
  ∃ r ∈ rs, ∃ j, ∃ p ∈ r.sees j, ∃ v, p.wr fd = some v ∧ CanWrite v

/-- C44.  A successful wait hands out at most `maxevents` events, as many as it says, for different descriptors, each registered and
open, with the number stored at the registration, with no event bit that was not asked for; reading and writing only if seen possible.
The registrations stay, but for those of closed descriptors. -/
theorem wait_events {m iter : Reg} {epfd maxevents : Int} {isOpen : Nat → Bool} {rs : List Round} {n : Int} {es : List (Nat × Ev)}
    {s : EpSlot} (hk : Keys m) (hi : iter.Perm m) (h : epollWait (.epoll m) epfd maxevents iter isOpen rs = (s, .ok n, es)) :
    n = es.length ∧ (es.length : Int) ≤ maxevents ∧ (es.map (·.1)).Nodup ∧
    (∀ e ∈ es, ∃ g, m.get e.1 = some g ∧ isOpen e.1 = true ∧ e.2.data = g.data ∧ e.2.events ≠ 0 ∧
      e.2.events &&& g.events = e.2.events ∧
      (e.2.events &&& 1 ≠ 0 → SeenRead rs e.1) ∧ (e.2.events &&& 4 ≠ 0 → SeenWrite rs e.1)) ∧
    ∃ m', s = .epoll m' ∧ ∀ fd, m'.get fd = if isOpen fd then m.get fd else none := by
  obtain ⟨h1, h2, h3, k, ys, h4, h5⟩ := wait_ok h
  have hiK : Keys iter := (hi.map (fun e : Nat × Ev => e.1)).nodup_iff.2 hk
  have hopen : ∀ {fd e}, Reg.get (m.filter fun e => isOpen e.1) fd = some e → m.get fd = some e ∧ isOpen fd = true := by
    intro fd e he
    have := List.mem_filter.1 (get_mem he)
    exact ⟨mem_get hk this.1, this.2⟩
  obtain ⟨c1, c2, c3, -⟩ := collect_ok (by omega) h5
  obtain ⟨p1, -⟩ := poll_entries h4
  obtain ⟨r, hr, hon⟩ := poll_honest h4
  have hfds : ys.map (·.fd.toNat) = (iter.filter fun e => isOpen e.1).map (·.1) := by
    have := congrArg (List.map fun q : Int × BitVec 16 => q.1.toNat) p1
    simpa [List.map_map, Function.comp_def] using this
  refine ⟨h2, by omega, ?_, ?_, ⟨_, h3, ?_⟩⟩
  · rw [hfds] at c3
    exact (show ((iter.filter fun e => isOpen e.1).map (·.1)).Nodup from keys_filter _ hiK).sublist c3
  · intro e he
    obtain ⟨y, hy, g, g1, g2, g3, g4, g5⟩ := c2 e he
    obtain ⟨o1, o2⟩ := hopen g1
    obtain ⟨j, hj⟩ := List.mem_iff_getElem?.1 hy
    have hyx := congrArg (fun l => l[j]?) p1
    simp only [List.getElem?_map, hj, Option.map_some] at hyx
    cases hx : (iter.filter fun e => isOpen e.1)[j]? with
    | none => rw [hx] at hyx; cases hyx
    | some x =>
      rw [hx] at hyx
      simp only [Option.map_some, Option.some.injEq, Prod.mk.injEq] at hyx
      obtain ⟨y1, y2⟩ := hyx
      have hxm := List.mem_filter.1 (List.mem_iff_getElem?.2 ⟨j, hx⟩)
      have hfd : e.1 = x.1 := by rw [g2, y1]; rfl
      have hg : g = x.2 := by
        have hx2 : iter.get x.1 = some x.2 := mem_get hiK hxm.1
        have hmm : m.get x.1 = some x.2 := mem_get hk (hi.mem_iff.1 hxm.1)
        rw [← hfd, o1] at hmm
        exact Option.some.inj hmm
      obtain ⟨H, -⟩ := hon j y hj (by rw [y1]; omega)
      have tp : ∀ i o p : Bool, ∀ b : BitVec 16,
          (b = pollIn → ((if i then pollIn else (0 : BitVec 16)) ||| (if o then pollOut else 0) ||| (if p then pollPri else 0)) &&& b ≠ 0 → i = true) ∧
          (b = pollOut → ((if i then pollIn else (0 : BitVec 16)) ||| (if o then pollOut else 0) ||| (if p then pollPri else 0)) &&& b ≠ 0 → o = true) ∧
          (b = pollPri → ((if i then pollIn else (0 : BitVec 16)) ||| (if o then pollOut else 0) ||| (if p then pollPri else 0)) &&& b ≠ 0 → p = true) := by
        intro i o p b
        refine ⟨?_, ?_, ?_⟩ <;> rintro rfl <;> revert i o p <;> decide
      have tpp := tp (decide (g.events &&& 1 ≠ 0)) (decide (g.events &&& 4 ≠ 0)) (decide (g.events &&& 2 ≠ 0))
      simp only [decide_eq_true_eq] at tpp
      have hev : y.events = toPoll g.events := by rw [hg]; exact y2
      have wI : y.wants pollIn → g.events &&& 1 ≠ 0 := by
        unfold PollFd.wants; rw [hev]; exact (tpp pollIn).1 rfl
      have wO : y.wants pollOut → g.events &&& 4 ≠ 0 := by
        unfold PollFd.wants; rw [hev]; exact (tpp pollOut).2.1 rfl
      have wP : y.wants pollPri → g.events &&& 2 ≠ 0 := by
        unfold PollFd.wants; rw [hev]; exact (tpp pollPri).2.2 rfl
      have op : ∀ i o p : Bool,
          (((if i then (1 : BitVec 32) else 0) ||| (if o then 4 else 0) ||| (if p then 2 else 0)) &&& 1 ≠ 0 → i = true) ∧
          (((if i then (1 : BitVec 32) else 0) ||| (if o then 4 else 0) ||| (if p then 2 else 0)) &&& 4 ≠ 0 → o = true) := by decide
      have opp := op (decide (y.revents &&& pollIn ≠ 0)) (decide (y.revents &&& pollOut ≠ 0)) (decide (y.revents &&& pollPri ≠ 0))
      simp only [decide_eq_true_eq] at opp
      refine ⟨g, o1, o2, g3, g5, ?_, ?_, ?_⟩
      · rw [g4]
        exact event_bits _ _ (fun t => wI (H.inp t).1) (fun t => wO (H.out t).1) (fun t => wP (H.pri t))
      · intro hb
        rw [g4] at hb
        obtain ⟨-, p, hp, v, hv⟩ := H.inp (opp.1 hb)
        exact ⟨r, hr, j, p, hp, v, by rw [g2]; exact hv⟩
      · intro hb
        rw [g4] at hb
        obtain ⟨-, p, hp, v, hv⟩ := H.out (opp.2 hb)
        exact ⟨r, hr, j, p, hp, v, by rw [g2]; exact hv⟩
  · intro fd
    cases hg : m.get fd with
    | none =>
      cases hf : Reg.get (m.filter fun e => isOpen e.1) fd with
      | none => simp
      | some e => rw [(hopen hf).1] at hg; cases hg
    | some e =>
      cases ho : isOpen fd with
      | true =>
        simp only [if_true]
        exact mem_get (keys_filter _ hk) (List.mem_filter.2 ⟨get_mem hg, ho⟩)
      | false =>
        cases hf : Reg.get (m.filter fun e => isOpen e.1) fd with
        | none => simp
        | some e => rw [(hopen hf).2] at ho; cases ho

end Verif.Select
