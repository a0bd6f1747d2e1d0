import Verif.HistLemmas

/-!
# Properties of whole histories: inode numbers (C16) and file contents (C20)
-/

set_option linter.unusedSimpArgs false

namespace Verif.Kernel
open Verif.Fs Verif.Path Verif.Getdents

/-! ## C16: inode numbers -/

/-- Inode number `i` is in use. -/
def Exists (s : State) (i : Nat) : Prop := s.fs.inodes i ≠ none

/-- Every number in use is below the counter. -/
def Bounded (s : State) : Prop := ∀ i, Exists s i → i < s.fs.next

theorem step_exists {s : State} {c : Nat} {op : Op} {i : Nat} (h : Exists (step s c op).1 i) :
    Exists s i ∨ (s.fs.next ≤ i ∧ i < (step s c op).1.fs.next) := by
  have he := step_evo s c op
  cases hi : (step s c op).1.fs.inodes i with
  | none => exact absurd hi h
  | some nd =>
    rcases he.old i nd hi with ⟨nd0, h1, -⟩ | h1
    · exact .inl (by unfold Exists; rw [h1]; simp)
    · exact .inr h1

theorem run_exists {h : List (Nat × Op)} {s : State} {i : Nat} (hx : Exists (run s h) i) :
    s.fs.next ≤ (run s h).fs.next ∧ (Exists s i ∨ s.fs.next ≤ i) := by
  induction h generalizing s with
  | nil => exact ⟨Nat.le_refl _, .inl hx⟩
  | cons x h ih =>
    obtain ⟨c, op⟩ := x
    obtain ⟨h1, h2⟩ := ih hx
    have hn := (step_evo s c op).next
    refine ⟨Nat.le_trans hn h1, ?_⟩
    rcases h2 with h2 | h2
    · rcases step_exists h2 with h3 | h3
      · exact .inl h3
      · exact .inr h3.1
    · exact .inr (Nat.le_trans hn h2)

theorem run_bounded {h : List (Nat × Op)} {s : State} (hb : Bounded s) : Bounded (run s h) := by
  induction h generalizing s with
  | nil => exact hb
  | cons x h ih =>
    obtain ⟨c, op⟩ := x
    refine ih ?_
    intro i hi
    rcases step_exists hi with h1 | h1
    · exact Nat.lt_of_lt_of_le (hb i h1) (step_evo s c op).next
    · exact h1.2

theorem init_bounded : Bounded init := fun _ hi => by
  cases hx : init.fs.inodes _ with
  | none => exact absurd hx hi
  | some nd => exact init_inv.fs.tree.bound hx

/-- C16.  In any history whatever of system calls of any cages, from the initial state: once an object has existed and is
gone, its number is never in use again. -/
theorem number_not_reused (h1 h2 h3 : List (Nat × Op)) (i : Nat) (hex : Exists (run init h1) i)
    (hgone : ¬ Exists (run init (h1 ++ h2)) i) : ¬ Exists (run init (h1 ++ h2 ++ h3)) i := by
  intro hx
  have hb := run_bounded (h := h1) init_bounded i hex
  rw [run_append] at hx
  rcases (run_exists hx).2 with hy | hy
  · exact hgone hy
  · rw [run_append] at hy
    have : (run init h1).fs.next ≤ (run (run init h1) h2).fs.next := by
      have : ∀ (h : List (Nat × Op)) (s : State), s.fs.next ≤ (run s h).fs.next := by
        intro h
        induction h with
        | nil => exact fun _ => Nat.le_refl _
        | cons x h ih => exact fun s => Nat.le_trans (step_evo s x.1 x.2).next (ih _)
      exact this _ _
    omega

/-- C16.  A number that a call starts to use was not in use in any earlier state of the history. -/
theorem created_number_new (h1 h2 : List (Nat × Op)) (c : Nat) (op : Op) (i : Nat)
    (hnew : Exists (step (run init (h1 ++ h2)) c op).1 i) (hno : ¬ Exists (run init (h1 ++ h2)) i) :
    ¬ Exists (run init h1) i := by
  intro hex
  refine number_not_reused h1 h2 [(c, op)] i hex hno ?_
  rw [run_append init (h1 ++ h2)]
  exact hnew

/-- A file is created, removed, and another created: 9, then 10. -/
example : let h1 : List (Nat × Op) := [(0, .openP pA 0o102#32 0o666#32)]
    let h2 : List (Nat × Op) := [(0, .unlink pA), (0, .close 3)]
    let h3 : List (Nat × Op) := [(0, .openP pA 0o102#32 0o666#32)]
    (run init h1).fs.inodes 9 ≠ none ∧ (run init (h1 ++ h2)).fs.inodes 9 = none ∧
    (run init (h1 ++ h2 ++ h3)).fs.inodes 10 ≠ none := by
  refine ⟨?_, ?_, ?_⟩
  · rw [← Option.isSome_iff_ne_none]; decide +kernel
  · rw [← Option.isNone_iff_eq_none]; decide +kernel
  · rw [← Option.isSome_iff_ne_none]; decide +kernel

/-! ## C20: file contents -/

/-- A change of a file: `put off data` stores bytes, `trunc n` sets the length. -/
inductive Edit
  | put (off : Nat) (data : List UInt8)
  | trunc (n : Nat)

/-- An ideal file: a byte at every offset (zero where nothing was stored) and a length. -/
structure Ideal where
  byte : Nat → UInt8
  len : Nat

/-- What a change does to an ideal file. -/
def Edit.apply (f : Ideal) : Edit → Ideal
  | .put off data =>
    { byte := fun k => if off ≤ k ∧ k < off + data.length then (data[k - off]?).getD 0 else f.byte k
      len := max f.len (off + data.length) }
  | .trunc n => { byte := fun k => if k < n then f.byte k else 0, len := n }

/-- The calls that change file `i`, and how. -/
inductive Edits (s : State) (c i : Nat) : Op → Edit → Prop
  | write {fd pos f data} : OpenOn s c fd i pos f → f &&& 3#32 ≠ 0#32 → Edits s c i (.write (fd : Nat) data) (.put pos data)
  | writev {fd pos f iovs} : OpenOn s c fd i pos f → f &&& 3#32 ≠ 0#32 →
      Edits s c i (.writev (fd : Nat) iovs) (.put pos iovs.flatten)
  | pwrite {fd pos f data} {off : Nat} : OpenOn s c fd i pos f → f &&& 3#32 ≠ 0#32 →
      Edits s c i (.pwrite (fd : Nat) data off) (.put off data)
  | ftruncate {fd pos f} {n : Nat} : OpenOn s c fd i pos f → f &&& 3#32 ≠ 0#32 →
      Edits s c i (.ftruncate (fd : Nat) n) (.trunc n)
  | truncate {p cg} {n : Nat} : s.cages c = some cg → Leads s cg p i → Edits s c i (.truncate p n) (.trunc n)
  | openTrunc {p cg mode flags v} : s.cages c = some cg → Leads s cg p i → flags &&& 0o1000#32 ≠ 0#32 →
      (step s c (.openP p flags mode)).2.ret = .ok v → Edits s c i (.openP p flags mode) (.trunc 0)

/-- The ideal file that inode `i` is. -/
def ideal (s : State) (i : Nat) : Ideal := { byte := fun k => ((bytes s i)[k]?).getD 0, len := (bytes s i).length }

theorem ideal_written {s s' : State} {i off : Nat} {data : List UInt8} (h : Written (bytes s i) off data (bytes s' i)) :
    ideal s' i = Edit.apply (ideal s i) (.put off data) := by
  obtain ⟨h1, h2, h3, h4⟩ := h
  simp only [ideal, Edit.apply, Ideal.mk.injEq]
  refine ⟨?_, h4⟩
  funext k
  split
  · rename_i hk
    have := h1 (k - off) (by omega)
    rw [show off + (k - off) = k by omega] at this
    rw [this]
  · rename_i hk
    by_cases hl : k < (bytes s i).length
    · rw [h2 k (by omega) hl]
    · rw [List.getElem?_eq_none (by omega : (bytes s i).length ≤ k)]
      by_cases ho : k < off
      · rw [h3 k (by omega) ho]; rfl
      · rw [List.getElem?_eq_none (by omega)]

theorem ideal_truncated {s s' : State} {i n : Nat} (h : Truncated (bytes s i) n (bytes s' i)) :
    ideal s' i = Edit.apply (ideal s i) (.trunc n) := by
  obtain ⟨h1, h2, h3⟩ := h
  simp only [ideal, Edit.apply, Ideal.mk.injEq]
  refine ⟨?_, h1⟩
  funext k
  split
  · rename_i hk
    by_cases hl : k < (bytes s i).length
    · rw [h2 k hk hl]
    · rw [h3 k hk (by omega), List.getElem?_eq_none (by omega : (bytes s i).length ≤ k)]; rfl
  · rw [List.getElem?_eq_none (by omega)]; rfl

theorem trunc_bit (f : BitVec 32) : f &&& oTRUNC = oTRUNC ↔ f &&& 0o1000#32 ≠ 0#32 := by
  have hb : ∀ k < 32, (0o1000#32).getLsbD k = (k == 9) := by decide
  show f &&& 0o1000#32 = 0o1000#32 ↔ _
  constructor
  · intro h; rw [h]; decide
  · intro h
    have h9 : f.getLsbD 9 = true := by
      apply Classical.byContradiction
      intro hn
      apply h
      apply BitVec.eq_of_getLsbD_eq
      intro k hk
      rw [BitVec.getLsbD_and, hb k hk]
      by_cases e : k = 9
      · subst e; simp only [Bool.not_eq_true] at hn; rw [hn]; rfl
      · simp [e]
    apply BitVec.eq_of_getLsbD_eq
    intro k hk
    rw [BitVec.getLsbD_and, hb k hk]
    by_cases e : k = 9
    · subst e; simp [h9]
    · simp [e]

theorem isRdonly_false (f : BitVec 32) : isRdonly f = false ↔ f &&& 3#32 ≠ 0#32 := by
  unfold isRdonly; simp [oRDWRFLAGS]

theorem getFd_openOn {s : State} {c i pos : Nat} {f : BitVec 32} {cg : Cage} {fd : Int} (hc : s.cages c = some cg)
    (h : getFd cg.fds fd = some (some (.file i pos f))) : ∃ n : Nat, fd = n ∧ OpenOn s c n i pos f := by
  simp only [getFd] at h
  split at h
  · cases h
  · rename_i hr
    simp only [Option.some.injEq] at h
    have hm : (maxFd : Int) = 1024 := rfl
    exact ⟨fd.toNat, by omega, by omega, cg, hc, h⟩

/-- The content after `open` with O_TRUNC. -/
theorem openTrunc_empty {s : State} (h : Reach s) {c i : Nat} {cg : Cage} {p : Str} {flags mode : BitVec 32} {v : Int}
    (hc : s.cages c = some cg) (hl : Leads s cg p i) (ht : flags &&& 0o1000#32 ≠ 0#32) (hf : ∃ n, IsFile s i n)
    (hok : (step s c (.openP p flags mode)).2.ret = .ok v) : bytes (step s c (.openP p flags mode)).1 i = [] := by
  obtain ⟨par, hw, -⟩ := h.inv.walk_found hc hl
  obtain ⟨n, nd, hi, hk, -⟩ := hf
  simp only [step, hc, openSys] at hok ⊢
  split
  · rename_i hp; simp [hp, Out.r] at hok
  · rename_i hp
    rw [if_neg hp] at hok
    split
    · rename_i e; simp [e, Out.r] at hok
    · rename_i fd e
      simp only [e] at hok
      have hT := (trunc_bit flags).2 ht
      simp only [Fs.openP, hw, Fs.openExisting, hi, hk, hT, if_true] at hok ⊢
      by_cases hx : flags &&& (oCREAT ||| oEXCL) = oCREAT ||| oEXCL
      · simp [hx, Out.r] at hok
      · simp only [if_neg hx] at hok ⊢
        cases hd : s.fs.disk i with
        | none => simp [hd, Out.r] at hok
        | some d =>
          simp only [bytes, setFd_fs', Fs.set, Fs.rmHost, Fs.openObj, upd_same]
          rfl

/-- C20, one call.  A call that changes file `i` changes it as `Edits` says; every other call leaves its content
alone.  Any call of any cage, as long as the file exists afterwards. -/
theorem content_step {s : State} (h : Reach s) {c i : Nat} {op : Op} (hf : ∃ n, IsFile s i n)
    (hx : Exists (step s c op).1 i) :
    (∀ e, Edits s c i op e → ideal (step s c op).1 i = e.apply (ideal s i)) ∧
    ((∀ e, ¬ Edits s c i op e) → ideal (step s c op).1 i = ideal s i) ∧ ∃ n, IsFile (step s c op).1 i n := by
  have hev := step_evo s c op
  refine ⟨?_, ?_, ?_⟩
  · intro e he
    obtain ⟨n, hf'⟩ := hf
    cases he with
    | write ho hm => exact ideal_written (write_writes h ho hf' hm).1
    | writev ho hm => exact ideal_written (writev_writes h ho hf' hm).1
    | pwrite ho hm => exact ideal_written (pwrite_writes h ho hf' hm).1
    | ftruncate ho hm => exact ideal_truncated (ftruncate_truncates h ho hf' hm).2.1
    | truncate hc hl => exact ideal_truncated (truncate_truncates h hc hl hf').2.1
    | openTrunc hc hl ht hok =>
      have := openTrunc_empty h hc hl ht ⟨n, hf'⟩ hok
      apply ideal_truncated
      rw [this]
      exact ⟨rfl, by omega, by omega⟩
  · intro hno
    cases hi : (step s c op).1.fs.inodes i with
    | none => exact absurd hi hx
    | some nd' =>
      rcases hev.old i nd' hi with ⟨nd, h1, h2, h3 | ⟨-, h3⟩⟩ | ⟨h1, -⟩
      · exfalso
        obtain ⟨⟨v, hv⟩, cg, hc, ht⟩ := h3
        cases op <;> simp only at ht
        case openP p flags mode =>
          obtain ⟨⟨par, hw⟩, ht⟩ := ht
          have hl : Leads s cg p i := by
            by_cases hex : ∃ j, Leads s cg p j
            · obtain ⟨j, hj⟩ := hex
              obtain ⟨par', hw', -⟩ := h.inv.walk_found hc hj
              rw [hw] at hw'; cases hw'; exact hj
            · obtain ⟨par', hw', -⟩ := h.inv.walk_missing hc (fun j hj => hex ⟨j, hj⟩)
              rw [hw] at hw'; cases hw'
          exact hno _ (.openTrunc hc hl ((trunc_bit _).1 ht) hv)
        case truncate p len =>
          obtain ⟨par, hw⟩ := ht
          have hl : Leads s cg p i := by
            by_cases hex : ∃ j, Leads s cg p j
            · obtain ⟨j, hj⟩ := hex
              obtain ⟨par', hw', -⟩ := h.inv.walk_found hc hj
              rw [hw] at hw'; cases hw'; exact hj
            · obtain ⟨par', hw', -⟩ := h.inv.walk_missing hc (fun j hj => hex ⟨j, hj⟩)
              rw [hw] at hw'; cases hw'
          have hlen : 0 ≤ len := by
            apply Classical.byContradiction
            intro hneg
            simp [step, hc, State.onFs, Fs.truncate, hw, Fs.truncIno, show len < 0 by omega, Out.r] at hv
          obtain ⟨m, rfl⟩ := Int.eq_ofNat_of_zero_le hlen
          exact hno _ (.truncate hc hl)
        case ftruncate fd len =>
          obtain ⟨pos, f, hg, hr⟩ := ht
          obtain ⟨m, rfl, ho⟩ := getFd_openOn hc hg
          have hlen : 0 ≤ len := by
            apply Classical.byContradiction
            intro hneg
            simp [step, hc, ftruncate, hg, hr, State.onFs, Fs.truncIno, show len < 0 by omega, Out.r] at hv
          obtain ⟨m, rfl⟩ := Int.eq_ofNat_of_zero_le hlen
          exact hno _ (.ftruncate ho ((isRdonly_false f).1 hr))
        case write fd data =>
          obtain ⟨pos, f, hg, hr⟩ := ht
          obtain ⟨m, rfl, ho⟩ := getFd_openOn hc hg
          exact hno _ (.write ho ((isRdonly_false f).1 hr))
        case writev fd data =>
          obtain ⟨pos, f, hg, hr⟩ := ht
          obtain ⟨m, rfl, ho⟩ := getFd_openOn hc hg
          exact hno _ (.writev ho ((isRdonly_false f).1 hr))
        case pwrite fd data off =>
          obtain ⟨pos, f, hg, hr⟩ := ht
          obtain ⟨m, rfl, ho⟩ := getFd_openOn hc hg
          have hoff : 0 ≤ off := by
            apply Classical.byContradiction
            intro hneg
            obtain ⟨n, nd0, e1, e2, -⟩ := hf
            simp [step, hc, pwrite, hg, hr, e1, e2, show off < 0 by omega, Out.r] at hv
          obtain ⟨m, rfl⟩ := Int.eq_ofNat_of_zero_le hoff
          exact hno _ (.pwrite ho ((isRdonly_false f).1 hr))
      · simp only [ideal, bytes]
        simp only [cont] at h3
        rw [h3]
      · obtain ⟨n, nd0, e1, -⟩ := hf
        have := h.inv.fs.tree.bound e1
        omega
  · cases hi : (step s c op).1.fs.inodes i with
    | none => exact absurd hi hx
    | some nd' =>
      obtain ⟨n, nd0, e1, e2, -⟩ := hf
      rcases hev.old i nd' hi with ⟨nd, h1, h2, -⟩ | ⟨h1, -⟩
      · rw [e1] at h1; cases h1
        exact ⟨nd'.size, nd', hi, h2.trans e2, rfl⟩
      · have := h.inv.fs.tree.bound e1
        omega

/-- The changes of file `i` in a history, in order. -/
inductive EditsOf (i : Nat) : State → List (Nat × Op) → List Edit → Prop
  | nil {s} : EditsOf i s [] []
  | edit {s c op e h es} : Edits s c i op e → EditsOf i (step s c op).1 h es → EditsOf i s ((c, op) :: h) (e :: es)
  | other {s c op h es} : (∀ e, ¬ Edits s c i op e) → EditsOf i (step s c op).1 h es → EditsOf i s ((c, op) :: h) es

/-- A history of calls none of which aborts and none of which is one of those excluded by `Tame`. -/
inductive Calm : State → List (Nat × Op) → Prop
  | nil {s} : Calm s []
  | cons {s c op h} : Tame s c op → (step s c op).2.ret ≠ .panic → Calm (step s c op).1 h → Calm s ((c, op) :: h)

theorem runB_calm {s : State} {h : List (Nat × Op)} (hb : runB s h = true) : Calm s h := by
  induction h generalizing s with
  | nil => exact .nil
  | cons x h ih =>
    obtain ⟨c, op⟩ := x
    simp only [runB, Bool.and_eq_true, decide_eq_true_eq] at hb
    exact .cons (tameB_tame hb.1.1) hb.1.2 (ih hb.2)

/-- Every history has its list of changes. -/
theorem editsOf_exists (i : Nat) (s : State) (h : List (Nat × Op)) : ∃ es, EditsOf i s h es := by
  induction h generalizing s with
  | nil => exact ⟨[], .nil⟩
  | cons x h ih =>
    obtain ⟨c, op⟩ := x
    obtain ⟨es, he⟩ := ih (step s c op).1
    by_cases hx : ∃ e, Edits s c i op e
    · obtain ⟨e, hx⟩ := hx; exact ⟨_, .edit hx he⟩
    · exact ⟨_, .other (fun e he => hx ⟨e, he⟩) he⟩

/-- C20, histories.  After any history of calls of any cages the content of a file that still exists is what the changes
made in that history, applied in order to an ideal file, make of the content it had. -/
theorem content_history {s : State} (h : Reach s) {i : Nat} (hf : ∃ n, IsFile s i n) {hist : List (Nat × Op)}
    (hcalm : Calm s hist) {es : List Edit} (he : EditsOf i s hist es) (hx : Exists (run s hist) i) :
    ideal (run s hist) i = es.foldl Edit.apply (ideal s i) ∧ ∃ n, IsFile (run s hist) i n := by
  induction he with
  | nil => exact ⟨rfl, hf⟩
  | @edit s c op e hh es h1 h2 ih =>
    cases hcalm with
    | cons t p q =>
      have hR := Reach.step c op h t p
      have hx' : Exists (step s c op).1 i := by
        obtain ⟨n, nd, e1, -⟩ := hf
        have hb := h.inv.fs.tree.bound e1
        rcases (run_exists (s := (step s c op).1) (h := hh) hx).2 with hy | hy
        · exact hy
        · have := (step_evo s c op).next; omega
      obtain ⟨a, b, d⟩ := content_step h hf hx'
      rw [List.foldl_cons, ← a e h1]
      exact ih hR d q hx
  | @other s c op hh es h1 h2 ih =>
    cases hcalm with
    | cons t p q =>
      have hR := Reach.step c op h t p
      have hx' : Exists (step s c op).1 i := by
        obtain ⟨n, nd, e1, -⟩ := hf
        have hb := h.inv.fs.tree.bound e1
        rcases (run_exists (s := (step s c op).1) (h := hh) hx).2 with hy | hy
        · exact hy
        · have := (step_evo s c op).next; omega
      obtain ⟨a, b, d⟩ := content_step h hf hx'
      rw [← b h1]
      exact ih hR d q hx

theorem Calm.reach {s : State} (h : Reach s) {hist : List (Nat × Op)} (hcalm : Calm s hist) : Reach (run s hist) := by
  induction hcalm with
  | nil => exact h
  | cons t p _ ih => exact ih (.step _ _ h t p)

/-- The change leaves the byte at `k` alone. -/
def Edit.Spares (k : Nat) : Edit → Prop
  | .put off data => k < off ∨ off + data.length ≤ k
  | .trunc n => k < n

/-- C20.  The byte most recently stored at `k`: a `pread` through any descriptor open for reading, of any cage, after
any history in which `data` was stored over `k` and nothing changed the byte since. -/
theorem read_last_written {s : State} (h : Reach s) {i : Nat} (hf : ∃ n, IsFile s i n) {hist : List (Nat × Op)}
    (hcalm : Calm s hist) {es1 es2 : List Edit} {off k : Nat} {data : List UInt8}
    (he : EditsOf i s hist (es1 ++ .put off data :: es2)) (hk : off ≤ k ∧ k < off + data.length)
    (hs : ∀ e ∈ es2, Edit.Spares k e) {c fd pos n : Nat} {f : BitVec 32}
    (ho : OpenOn (run s hist) c fd i pos f) (hm : f &&& 3#32 ≠ 1#32) (hn : 0 < n) :
    ((step (run s hist) c (.pread (fd : Nat) n (k : Nat))).2.data)[0]? = data[k - off]? := by
  have hR := hcalm.reach h
  have hx : Exists (run s hist) i := by
    obtain ⟨cg, hc, hg, hs⟩ := ho.get
    have hd := open_alive hR hc hs
    obtain ⟨nd, hnd⟩ := hd
    unfold Exists; rw [hnd]; simp
  obtain ⟨hid, m, hfin⟩ := content_history h hf hcalm he hx
  have hbyte : ∀ (es : List Edit) (g : Ideal), (∀ e ∈ es, Edit.Spares k e) → k < g.len →
      (es.foldl Edit.apply g).byte k = g.byte k ∧ k < (es.foldl Edit.apply g).len := by
    intro es
    induction es with
    | nil => exact fun g _ h => ⟨rfl, h⟩
    | cons e es ih =>
      intro g hsp hl
      have h1 := hsp e (by simp)
      have h2 : (e.apply g).byte k = g.byte k ∧ k < (e.apply g).len := by
        cases e with
        | put o d =>
          simp only [Edit.Spares] at h1
          simp only [Edit.apply]
          refine ⟨if_neg (by omega), by omega⟩
        | trunc m =>
          simp only [Edit.Spares] at h1
          simp only [Edit.apply]
          exact ⟨if_pos h1, h1⟩
      obtain ⟨a, b⟩ := ih (e.apply g) (fun e he => hsp e (by simp [he])) h2.2
      exact ⟨a.trans h2.1, b⟩
  rw [List.foldl_append, List.foldl_cons] at hid
  generalize es1.foldl Edit.apply (ideal s i) = g at hid
  have h1 : k < ((Edit.put off data).apply g).len := by simp only [Edit.apply]; omega
  obtain ⟨h2, h3⟩ := hbyte es2 _ hs h1
  rw [← hid] at h2 h3
  simp only [Edit.apply, hk, and_self, if_true, ideal] at h2 h3
  have hlen := (size_is_length hR hfin).1
  rw [(pread_returns_partial hR ho hfin hm (by omega)).1, List.getElem?_take, if_pos hn, List.getElem?_drop, Nat.add_zero,
    List.getElem?_eq_getElem h3, List.getElem?_eq_getElem (by omega)]
  rw [List.getElem?_eq_getElem h3, List.getElem?_eq_getElem (by omega)] at h2
  simpa using h2

theorem openOn_of_slot {s : State} {c fd i pos : Nat} {f : BitVec 32} (hfd : fd < 1024)
    (h : slot s c fd = some (.file i pos f)) : OpenOn s c fd i pos f := by
  cases hc : s.cages c with
  | none => rw [slot_none hc] at h; cases h
  | some cg => rw [slot_eq hc] at h; exact ⟨hfd, cg, hc, h⟩

/-- A history of writes and truncations of `/a` through two descriptors of two cages, and its list of changes. -/
example : let hist : List (Nat × Op) := [(0, .fork 2), (2, .write 3 [9, 8]), (0, .pwrite 3 [7] 0), (0, .ftruncate 3 4)]
    Calm demo hist ∧ (∃ n, IsFile demo 9 n) ∧ Exists (run demo hist) 9 ∧ bytes (run demo hist) 9 = [7, 2, 3, 9] ∧
    OpenOn (run demo hist) 2 3 9 5 2#32 ∧
    EditsOf 9 demo hist [.put 3 [9, 8], .put 0 [7], .trunc 4] := by
  refine ⟨runB_calm (by decide +kernel), ⟨3, demo_open.2.1⟩, ?_, by decide +kernel,
    openOn_of_slot (by decide) (by decide +kernel), ?_⟩
  · unfold Exists; rw [← Option.isSome_iff_ne_none]; decide +kernel
  · refine .other (fun e he => by cases he) ?_
    refine .edit (Edits.write (fd := 3) (pos := 3) (f := 2#32) (openOn_of_slot (by decide) (by decide +kernel)) (by decide)) ?_
    refine .edit (Edits.pwrite (fd := 3) (off := 0) (pos := 3) (f := 2#32) (openOn_of_slot (by decide) (by decide +kernel)) (by decide)) ?_
    refine .edit (Edits.ftruncate (fd := 3) (n := 4) (pos := 3) (f := 2#32) (openOn_of_slot (by decide) (by decide +kernel)) (by decide)) ?_
    exact .nil

end Verif.Kernel
