import Verif.FdBitsLemmas

/-!
# C100: the descriptor sets of select as the caller sees them

Theorems.  The specification is in `FdBits.lean` (`Whole`, `meaning`).
-/

namespace Verif.FdBits
open Verif.Select

/-! ## The set operations -/

/-- C100.  `FD_SET`, `FD_CLR` and `FD_ISSET` on numbers from 0 to 1023 change and tell that one bit. -/
theorem set_ops {r : Raw} (hr : r.length = 16) {d : Nat} (hd : d < 1024) :
    isSet r d = some (meaning r d) ∧
    (∃ r', FdBits.set r d = some r' ∧ r'.length = 16 ∧ ∀ e, meaning r' e = (meaning r e || e == d)) ∧
    ∃ r', FdBits.clear r d = some r' ∧ r'.length = 16 ∧ ∀ e, meaning r' e = (meaning r e && e != d) :=
  ⟨isSet_nat hr hd, set_nat hr hd, clear_nat hr hd⟩

/-- C100.  On every other 32-bit number they panic; they never touch memory behind the set. -/
theorem set_ops_out {r : Raw} (hr : r.length = 16) {fd : Int} (h1 : -2147483648 ≤ fd) (h2 : fd < 2147483648) (h : fd < 0 ∨ 1024 ≤ fd) :
    isSet r fd = none ∧ FdBits.set r fd = none ∧ FdBits.clear r fd = none := by
  unfold isSet FdBits.set FdBits.clear
  rw [out_of_range hr h1 h2 h]
  exact ⟨rfl, rfl, rfl⟩

/-- C100.  A set is empty exactly if it means the empty set, and two sets that mean the same are the same words. -/
theorem set_same {r r' : Raw} (hr : r.length = 16) (hr' : r'.length = 16) :
    (isEmpty r = true ↔ meaning r = emptySet) ∧ (meaning r = meaning r' → r = r') := by
  refine ⟨⟨fun h => funext ((isEmpty_iff hr).1 h), fun h => (isEmpty_iff hr).2 (fun d => by rw [h]; rfl)⟩, fun h => ?_⟩
  apply List.ext_getElem (hr.trans hr'.symm)
  intro k h1 h2
  apply BitVec.eq_of_getLsbD_eq
  intro i hi
  have := congrFun h (64 * k + i)
  unfold meaning at this
  rw [show (64 * k + i) / 64 = k by omega, show (64 * k + i) % 64 = i by omega, List.getElem?_eq_getElem h1,
    List.getElem?_eq_getElem h2] at this
  exact this

/-! ## The call -/

/-- What the passes see are 32-bit host descriptors. -/
def Sees (p : Pass) : Prop := ∀ d v, p.rd d = some v → Narrow v

theorem selectRead_rel {n : Nat} (hn : n ≤ 1024) {req : Raw} (hq : req.length = 16) {p : Pass} (hp : Sees p) {s : Raw}
    (hs : s.length = 16) (c : Nat) :
    Same (fun (a : Raw × Nat) (b : FdSet × Nat) => a.1.length = 16 ∧ meaning a.1 = b.1 ∧ a.2 = b.2) (FdBits.selectRead n req p s c)
      (Select.selectRead n (meaning req) p (meaning s) c) := by
  have r0 : Rel { set := s, ret := c, raws := [], kernel := zero, high := 0 } { set := meaning s, ret := c, raws := [] } := by
    refine ⟨hs, zero_len, rfl, rfl, rfl, fun d => ?_, (fun _ a => nomatch a), by simp⟩
    rw [meaning_zero]; simp [emptySet]
  have h := readLoop_rel hq hp (List.range n) (fun d hd => by rw [List.mem_range] at hd; omega) r0
  unfold FdBits.selectRead Select.selectRead
  cases hc : FdBits.readLoop req p.rd (List.range n) { set := s, ret := c, raws := [], kernel := zero, high := 0 } with
  | error x =>
    rw [hc] at h
    cases ha : Select.readLoop (meaning req) p.rd (List.range n) { set := meaning s, ret := c, raws := [] } with
    | error y => rw [ha] at h; exact h
    | ok y => rw [ha] at h; exact h.elim
  | ok x =>
    rw [hc] at h
    cases ha : Select.readLoop (meaning req) p.rd (List.range n) { set := meaning s, ret := c, raws := [] } with
    | error y => rw [ha] at h; exact h.elim
    | ok y =>
      rw [ha] at h
      have h2 := hostPart_rel (h := p.host) h
      dsimp only
      cases hc2 : FdBits.hostPart p.host x with
      | error z =>
        rw [hc2] at h2
        cases ha2 : Select.hostPart p.host y with
        | error w => rw [ha2] at h2; exact h2
        | ok w => rw [ha2] at h2; exact h2.elim
      | ok z =>
        rw [hc2] at h2
        cases ha2 : Select.hostPart p.host y with
        | error w => rw [ha2] at h2; exact h2.elim
        | ok w => rw [ha2] at h2; exact ⟨h2.len, h2.set, h2.ret⟩

theorem writeLoop_rel {req : Raw} (hq : req.length = 16) {obs : Nat → Option View} :
    ∀ (fds : List Nat), (∀ d ∈ fds, d < 1024) → ∀ {a : Raw × Nat}, a.1.length = 16 →
    Same (fun (a : Raw × Nat) (b : FdSet × Nat) => a.1.length = 16 ∧ meaning a.1 = b.1 ∧ a.2 = b.2) (FdBits.writeLoop req obs fds a)
      (Select.writeLoop (meaning req) obs fds (meaning a.1, a.2)) := by
  intro fds
  induction fds with
  | nil => intro _ a ha; exact ⟨ha, rfl, rfl⟩
  | cons fd fds ih =>
    intro hf a ha
    have hd := hf fd (by simp)
    replace ih := @ih (fun d hd => hf d (by simp [hd]))
    unfold FdBits.writeLoop Select.writeLoop
    rw [isSet_nat hq hd]
    cases hm : meaning req fd with
    | false => simp only [if_true]; exact ih ha
    | true =>
      simp only [Bool.true_eq_false, if_false]
      cases hv : obs fd with
      | none => rfl
      | some v =>
        dsimp only
        cases hw : writeOne v with
        | error r => rfl
        | ok b =>
          cases b with
          | false => exact ih ha
          | true =>
            obtain ⟨r', e1, e2, e3⟩ := set_nat ha hd
            dsimp only
            rw [e1]
            have := ih (a := (r', a.2 + 1)) e2
            have e4 : meaning r' = fun d => meaning a.1 d || d == fd := funext e3
            simp only [e4] at this
            exact this

theorem exceptLoop_same {req : Raw} (hq : req.length = 16) {obs : Nat → Option View} :
    ∀ (fds : List Nat), (∀ d ∈ fds, d < 1024) → FdBits.exceptLoop req obs fds = Select.exceptLoop (meaning req) obs fds := by
  intro fds
  induction fds with
  | nil => intro _; rfl
  | cons fd fds ih =>
    intro hf
    have hd := hf fd (by simp)
    replace ih := ih (fun d hd => hf d (by simp [hd]))
    unfold FdBits.exceptLoop Select.exceptLoop
    rw [isSet_nat hq hd, ih]
    cases hm : meaning req fd with
    | false => simp
    | true => simp

/-- The abstract sets of concrete ones. -/
def SRel (c : FdBits.Sets) (a : Select.Sets) : Prop :=
  c.rd.length = 16 ∧ c.wr.length = 16 ∧ meaning c.rd = a.rd ∧ meaning c.wr = a.wr ∧ c.ret = a.ret

def setAt (m : Mem) (q : Option Nat) : Option FdSet := q.map fun q => meaning (m q)

theorem pass_rel {n : Nat} (hn : n ≤ 1024) {m : Mem} (hm : Whole m) (g : Args) {p : Pass} (hp : Sees p) {c : FdBits.Sets} {a : Select.Sets}
    (h : SRel c a) : Same SRel (FdBits.pass n m g p c) (Select.pass n (setAt m g.rd) (setAt m g.wr) (setAt m g.ex) p a) := by
  have hl : ∀ d ∈ List.range n, d < 1024 := fun d hd => by rw [List.mem_range] at hd; omega
  have H1 : Same SRel (FdBits.readPart n m g.rd p c) (Select.readPart n (setAt m g.rd) p a) := by
    unfold FdBits.readPart Select.readPart setAt
    cases g.rd with
    | none => exact h
    | some q =>
      have := selectRead_rel hn (hm q) hp h.1 c.ret
      rw [h.2.2.1, h.2.2.2.2] at this
      simp only [Option.map_some, h.2.2.2.2]
      cases hc : FdBits.selectRead n (m q) p c.rd a.ret with
      | error x =>
        rw [hc] at this
        cases ha : Select.selectRead n (meaning (m q)) p a.rd a.ret with
        | error y => rw [ha] at this; exact this
        | ok y => rw [ha] at this; exact this.elim
      | ok x =>
        rw [hc] at this
        cases ha : Select.selectRead n (meaning (m q)) p a.rd a.ret with
        | error y => rw [ha] at this; exact this.elim
        | ok y => rw [ha] at this; exact ⟨this.1, h.2.1, this.2.1, h.2.2.2.1, this.2.2⟩
  have H2 : ∀ {c : FdBits.Sets} {a : Select.Sets}, SRel c a → Same SRel (FdBits.writePart n m g.wr p c) (Select.writePart n (setAt m g.wr) p a) := by
    intro c a h
    unfold FdBits.writePart Select.writePart setAt
    cases g.wr with
    | none => exact h
    | some q =>
      have := writeLoop_rel (hm q) (obs := p.wr) (List.range n) hl (a := (c.wr, c.ret)) h.2.1
      simp only [h.2.2.2.1, h.2.2.2.2] at this
      simp only [Option.map_some, h.2.2.2.2]
      cases hc : FdBits.writeLoop (m q) p.wr (List.range n) (c.wr, a.ret) with
      | error x =>
        rw [hc] at this
        cases ha : Select.writeLoop (meaning (m q)) p.wr (List.range n) (a.wr, a.ret) with
        | error y => rw [ha] at this; exact this
        | ok y => rw [ha] at this; exact this.elim
      | ok x =>
        rw [hc] at this
        cases ha : Select.writeLoop (meaning (m q)) p.wr (List.range n) (a.wr, a.ret) with
        | error y => rw [ha] at this; exact this.elim
        | ok y => rw [ha] at this; exact ⟨h.1, this.1, h.2.2.1, this.2.1, this.2.2⟩
  have H3 : ∀ {c : FdBits.Sets} {a : Select.Sets}, SRel c a → Same SRel (FdBits.exceptPart n m g.ex p c) (Select.exceptPart n (setAt m g.ex) p a) := by
    intro c a h
    unfold FdBits.exceptPart Select.exceptPart setAt
    cases g.ex with
    | none => exact h
    | some q =>
      simp only [Option.map_some, exceptLoop_same (hm q) (List.range n) hl]
      cases Select.exceptLoop (meaning (m q)) p.ex (List.range n) with
      | some x => rfl
      | none => exact h
  unfold FdBits.pass Select.pass
  cases hc : FdBits.readPart n m g.rd p c with
  | error x =>
    rw [hc] at H1
    cases ha : Select.readPart n (setAt m g.rd) p a with
    | error y => rw [ha] at H1; exact H1
    | ok y => rw [ha] at H1; exact H1.elim
  | ok x =>
    rw [hc] at H1
    cases ha : Select.readPart n (setAt m g.rd) p a with
    | error y => rw [ha] at H1; exact H1.elim
    | ok y =>
      rw [ha] at H1
      have H2 := H2 H1
      dsimp only
      cases hc2 : FdBits.writePart n m g.wr p x with
      | error z =>
        rw [hc2] at H2
        cases ha2 : Select.writePart n (setAt m g.wr) p y with
        | error w => rw [ha2] at H2; exact H2
        | ok w => rw [ha2] at H2; exact H2.elim
      | ok z =>
        rw [hc2] at H2
        cases ha2 : Select.writePart n (setAt m g.wr) p y with
        | error w => rw [ha2] at H2; exact H2.elim
        | ok w => rw [ha2] at H2; exact H3 H2

/-- What a call leaves behind, in memory and as sets. -/
structure Agrees (m : Mem) (g : Args) (o : Mem × Ret) (b : Out) : Prop where
  whole : Whole o.1
  ret : o.2 = b.ret
  other : ∀ q, some q ≠ g.rd → some q ≠ g.wr → o.1 q = m q
  wr : setAt o.1 g.wr = b.wr
  rd : (∀ q, g.rd = some q → g.wr ≠ some q) → setAt o.1 g.rd = b.rd

theorem same_mem {m : Mem} (hm : Whole m) (g : Args) (x : Ret) :
    Agrees m g (m, x) { ret := x, rd := setAt m g.rd, wr := setAt m g.wr } :=
  ⟨hm, rfl, fun _ _ _ => rfl, rfl, fun _ => rfl⟩

theorem store_agrees {m : Mem} (hm : Whole m) (g : Args) {c : FdBits.Sets} {a : Select.Sets} (h : SRel c a) :
    Agrees m g (store (store m g.rd c.rd) g.wr c.wr, .ok c.ret)
      { ret := .ok a.ret, rd := (setAt m g.rd).map fun _ => a.rd, wr := (setAt m g.wr).map fun _ => a.wr } := by
  obtain ⟨h1, h2, h3, h4, h5⟩ := h
  constructor
  · intro q
    unfold store
    cases g.wr with
    | none =>
      cases g.rd with
      | none => exact hm q
      | some r => dsimp only; split
                  · exact h1
                  · exact hm q
    | some w =>
      dsimp only
      split
      · exact h2
      · cases g.rd with
        | none => exact hm q
        | some r => dsimp only; split
                    · exact h1
                    · exact hm q
  · dsimp only; rw [h5]
  · intro q hq1 hq2
    unfold store
    cases hw : g.wr with
    | none =>
      cases hr : g.rd with
      | none => rfl
      | some r => dsimp only; rw [if_neg]; intro e; exact hq1 (by rw [hr, e])
    | some w =>
      dsimp only
      rw [if_neg (fun e => hq2 (by rw [hw, e]))]
      cases hr : g.rd with
      | none => rfl
      | some r => dsimp only; rw [if_neg]; intro e; exact hq1 (by rw [hr, e])
  · unfold setAt store
    cases hw : g.wr with
    | none => rfl
    | some w => simp [h4]
  · intro hne
    unfold setAt store
    cases hr : g.rd with
    | none => rfl
    | some r =>
      cases hw : g.wr with
      | none => simp [h3]
      | some w =>
        have : r ≠ w := fun e => hne r hr (by rw [hw, e])
        simp [this, h3]

theorem loop_agrees {n : Nat} (hn : n ≤ 1024) {m : Mem} (hm : Whole m) (g : Args) : ∀ (ps : List Pass), (∀ p ∈ ps, Sees p) →
    ∀ {c : FdBits.Sets} {a : Select.Sets}, SRel c a →
    Agrees m g (FdBits.selectLoop n m g ps c) (Select.selectLoop n (setAt m g.rd) (setAt m g.wr) (setAt m g.ex) ps a) := by
  intro ps
  induction ps with
  | nil => intro _ c a _; exact same_mem hm g _
  | cons p ps ih =>
    intro hp c a h
    have H := pass_rel hn hm g (hp p (by simp)) h
    unfold FdBits.selectLoop Select.selectLoop
    cases hc : FdBits.pass n m g p c with
    | error x =>
      rw [hc] at H
      cases ha : Select.pass n (setAt m g.rd) (setAt m g.wr) (setAt m g.ex) p a with
      | error y =>
        rw [ha] at H
        have : x = y := H
        subst this
        exact same_mem hm g _
      | ok y => rw [ha] at H; exact H.elim
    | ok x =>
      rw [hc] at H
      cases ha : Select.pass n (setAt m g.rd) (setAt m g.wr) (setAt m g.ex) p a with
      | error y => rw [ha] at H; exact H.elim
      | ok y =>
        rw [ha] at H
        have hr : x.ret = y.ret := H.2.2.2.2
        dsimp only
        rw [hr]
        by_cases h1 : y.ret ≠ 0 ∨ p.late = true
        · rw [if_pos h1, if_pos h1, ← hr]
          have := store_agrees hm g H
          rw [← hr] at this
          exact this
        · rw [if_neg h1, if_neg h1]
          by_cases h2 : p.sig = true
          · rw [if_pos h2, if_pos h2]; exact same_mem hm g _
          · rw [if_neg h2, if_neg h2]; exact ih (fun p' hp' => hp p' (by simp [hp'])) H

/-- C100.  select on sets in memory does what select on sets does (C42): the same answer, the result sets at the two addresses, and nothing
else in memory changed.  (If the caller gave one address for both, the write result is there.) -/
theorem select_refines {m : Mem} (hm : Whole m) (g : Args) (ps : List Pass) (hp : ∀ p ∈ ps, Sees p) :
    Agrees m g (FdBits.select m g ps) (Select.select g.nfds (setAt m g.rd) (setAt m g.wr) (setAt m g.ex) ps) := by
  unfold FdBits.select Select.select
  by_cases h : g.nfds < 0 ∨ g.nfds ≥ fdSetMax
  · rw [if_pos h, if_pos h]; exact same_mem hm g _
  · rw [if_neg h, if_neg h]
    have hn : g.nfds.toNat ≤ 1024 := by unfold fdSetMax at h; omega
    exact loop_agrees hn hm g ps hp ⟨zero_len, zero_len, meaning_zero, meaning_zero, rfl⟩

/-- C100.  A bit that is on in a result set after a successful select was on before, is below `nfds`, and belongs to a descriptor that was
open and ready when the call looked at it. -/
theorem select_result {m : Mem} (hm : Whole m) {g : Args} {ps : List Pass} (hp : ∀ p ∈ ps, Sees p) {k : Int}
    (h : (FdBits.select m g ps).2 = .ok k) (d : Nat) :
    (∀ q, g.wr = some q → meaning ((FdBits.select m g ps).1 q) d = true →
      (d : Int) < g.nfds ∧ meaning (m q) d = true ∧ ∃ p ∈ ps, ∃ v, p.wr d = some v ∧ CanWrite v) ∧
    (∀ q, g.rd = some q → g.wr ≠ some q → meaning ((FdBits.select m g ps).1 q) d = true →
      (d : Int) < g.nfds ∧ meaning (m q) d = true ∧ ∃ p ∈ ps, ∃ v, p.rd d = some v ∧ CanRead p.host v) := by
  have A := select_refines hm g ps hp
  rw [A.ret] at h
  obtain ⟨B1, B2⟩ := select_bits h d
  constructor
  · intro q hq hd
    have e : setAt (FdBits.select m g ps).1 g.wr = some (meaning ((FdBits.select m g ps).1 q)) := by unfold setAt; rw [hq]; rfl
    obtain ⟨k1, ⟨t, k2, k3⟩, k4⟩ := B2 ⟨_, A.wr.symm.trans e, hd⟩
    unfold setAt at k2
    rw [hq] at k2
    cases k2
    exact ⟨k1, k3, k4⟩
  · intro q hq hne hd
    have e : setAt (FdBits.select m g ps).1 g.rd = some (meaning ((FdBits.select m g ps).1 q)) := by unfold setAt; rw [hq]; rfl
    obtain ⟨k1, ⟨t, k2, k3⟩, k4⟩ := B1 ⟨_, (A.rd (fun q' hq' => by rw [hq] at hq'; cases hq'; exact hne)).symm.trans e, hd⟩
    unfold setAt at k2
    rw [hq] at k2
    cases k2
    exact ⟨k1, k3, k4⟩

/-- The number of bits that are on. -/
def bits (r : Raw) : Nat := (List.range 1024).countP (meaning r)

/-- C100.  A successful select returns the number of bits that are on in the two result sets (with a null pointer there is none). -/
theorem select_counts {m : Mem} (hm : Whole m) {g : Args} {ps : List Pass} (hp : ∀ p ∈ ps, Sees p) {k : Int}
    (h : (FdBits.select m g ps).2 = .ok k) (hne : ∀ q, g.rd = some q → g.wr ≠ some q) :
    k = ((g.rd.map fun q => bits ((FdBits.select m g ps).1 q)).getD 0 : Nat) + ((g.wr.map fun q => bits ((FdBits.select m g ps).1 q)).getD 0 : Nat) := by
  have A := select_refines hm g ps hp
  have R := select_result hm hp h
  rw [A.ret] at h
  have c := select_count h
  rw [← A.wr, ← A.rd hne] at c
  have hr := select_range (by rw [h]; exact fun a => nomatch a)
  have key : ∀ r : Raw, (∀ d, meaning r d = true → (d : Int) < g.nfds) → ((List.range g.nfds.toNat).filter (meaning r)).length = bits r := by
    intro r hd
    rw [← List.countP_eq_length_filter]
    unfold bits
    have : List.range 1024 = List.range g.nfds.toNat ++ (List.range (1024 - g.nfds.toNat)).map (g.nfds.toNat + ·) := by
      rw [← List.range_add]; congr 1; omega
    rw [this, List.countP_append, List.countP_map]
    have : (List.range (1024 - g.nfds.toNat)).countP (meaning r ∘ (g.nfds.toNat + ·)) = 0 := by
      rw [List.countP_eq_zero]
      intro x _ hx
      have := hd (g.nfds.toNat + x) hx
      omega
    omega
  rw [c]
  congr 2
  · unfold setAt
    cases hq : g.rd with
    | none => rfl
    | some q =>
      simp only [Option.map_some, Option.getD_some, size]
      exact key _ (fun d hd => ((R d).2 q hq (hne q hq) hd).1)
  · unfold setAt
    cases hq : g.wr with
    | none => rfl
    | some q =>
      simp only [Option.map_some, Option.getD_some, size]
      exact key _ (fun d hd => ((R d).1 q hq hd).1)

/-- C100.  select leaves the exception set alone if it is at an address of its own, and on failure leaves everything. -/
theorem select_leaves {m : Mem} (hm : Whole m) {g : Args} {ps : List Pass} (hp : ∀ p ∈ ps, Sees p) :
    (∀ q, some q ≠ g.rd → some q ≠ g.wr → (FdBits.select m g ps).1 q = m q) ∧
    ((∀ k, (FdBits.select m g ps).2 ≠ .ok k) → (FdBits.select m g ps).1 = m) := by
  refine ⟨(select_refines hm g ps hp).other, fun h => ?_⟩
  unfold FdBits.select at h ⊢
  split
  · rfl
  · rename_i hr
    rw [if_neg hr] at h
    have : ∀ (ps : List Pass) (c : FdBits.Sets), (∀ k, (FdBits.selectLoop g.nfds.toNat m g ps c).2 ≠ .ok k) →
        (FdBits.selectLoop g.nfds.toNat m g ps c).1 = m := by
      intro ps
      induction ps with
      | nil => intro c _; rfl
      | cons p ps ih =>
        intro c h
        unfold FdBits.selectLoop at h ⊢
        cases hx : FdBits.pass g.nfds.toNat m g p c with
        | error x => rfl
        | ok x =>
          rw [hx] at h
          dsimp only at h ⊢
          split
          · rename_i h1; rw [if_pos h1] at h; exact absurd rfl (h _)
          · rename_i h1
            rw [if_neg h1] at h
            split
            · rfl
            · rename_i h2; rw [if_neg h2] at h; exact ih _ h
    exact this ps _ h

/-! ## The hypotheses are met -/

/-- A socket whose host descriptor is 70 at 3, a file at 66, a stream at 1. -/
def someView (d : Nat) : Option View :=
  if d = 3 then some (.inet 70 false) else if d = 66 then some .file else if d = 1 then some .stream else none

def somePass : Pass := { rd := someView, wr := someView, ex := someView, host := { fail := false, ready := fun k => k == 70 }, late := false, sig := false }

/-- Bits 1, 3, 66 on at address 0; bits 3 and 66 at address 1; others empty. -/
def someMem : Mem := fun q =>
  if q = 0 then [0b1010#64, 0b100#64] ++ List.replicate 14 0#64 else if q = 1 then [0b1000#64, 0b100#64] ++ List.replicate 14 0#64 else zero

example : Whole someMem := by
  intro q; unfold someMem; split
  · rfl
  · split <;> rfl

example : ∀ p ∈ [somePass], Sees p := by
  intro p hp d v hv raw est e
  rw [List.mem_singleton] at hp
  subst hp e
  simp only [somePass, someView] at hv
  split at hv
  · cases hv; decide
  · split at hv
    · cases hv
    · split at hv <;> cases hv

/-- The read result: 3 (through the host) and 66; the write result: 3 and 66; four bits. -/
example : (FdBits.select someMem { nfds := 67, rd := some 0, wr := some 1, ex := some 2 } [somePass]).2 = .ok 4 ∧
    (FdBits.select someMem { nfds := 67, rd := some 0, wr := some 1, ex := some 2 } [somePass]).1 0 =
      [0b1000#64, 0b100#64] ++ List.replicate 14 0#64 := by decide +kernel

example : isSet zero (-1) = none ∧ isSet zero 1024 = none ∧ isSet (someMem 0) 66 = some true := by decide +kernel

/-- With one address for the read and the write set the call answers 4 while two bits are on: the second result is stored over the first. -/
example : (FdBits.select someMem { nfds := 67, rd := some 1, wr := some 1, ex := none } [somePass]).2 = .ok 4 ∧
    bits ((FdBits.select someMem { nfds := 67, rd := some 1, wr := some 1, ex := none } [somePass]).1 1) = 2 := by decide +kernel

/-- The exception set is left as it was, so that after a successful call its bits are on although no descriptor has an exceptional
condition; POSIX says that they are off then. -/
theorem select_except_violated :
    let m : Mem := fun q => if q = 2 then [0b1000#64] ++ List.replicate 15 0#64 else someMem q
    (FdBits.select m { nfds := 67, rd := some 0, wr := none, ex := some 2 } [somePass]).2 = .ok 2 ∧
    (FdBits.select m { nfds := 67, rd := some 0, wr := none, ex := some 2 } [somePass]).1 2 = [0b1000#64] ++ List.replicate 15 0#64 := by
  decide +kernel

end Verif.FdBits
