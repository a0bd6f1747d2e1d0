import Verif.ShmConc

/-! # Shared memory calls by several threads: invariants of every interleaving -/

namespace Verif.ShmConc

/-- The segment a thread has. -/
def Pc.seg : Pc → Option Nat
  | .at2 _ _ id => some id
  | .at3 _ _ id => some id
  | _ => none

/-- The cage whose `rev_shm` a thread has. -/
def Pc.cage : Pc → Option Nat
  | .dt2 c _ _ => some c
  | .dt3 c _ _ => some c
  | _ => none

/-- What holds whatever the threads do. -/
structure Inv (s : St) : Prop where
  /-- who has a segment -/
  has : ∀ id t, s.lock id = some t ↔ (s.pc t).seg = some id
  /-- a segment that is had exists -/
  live : ∀ id t, (s.pc t).seg = some id → s.segs id ≠ none
  /-- who has a `rev_shm` -/
  hasR : ∀ c t, s.rlock c = some t ↔ (s.pc t).cage = some c
  found : ∀ t c a id, s.pc t = .dt2 c a id → ⟨c, a, id⟩ ∈ s.rev
  /-- identifiers -/
  fresh : ∀ id, s.next ≤ id → s.segs id = none
  freshR : ∀ a ∈ s.rev, a.id < s.next
  making : ∀ t k id, s.pc t = .get2 k id → id < s.next ∧ s.segs id = none ∧ ∀ a ∈ s.rev, a.id ≠ id
  maker : ∀ t t' k k' id, s.pc t = .get2 k id → s.pc t' = .get2 k' id → t = t'
  freshK : ∀ k id, s.keys k = some id → id < s.next

theorem Inv.init : Inv init := by
  constructor <;> simp [ShmConc.init, Pc.seg, Pc.cage]

theorem Inv.step {s s' : St} {t e r} (h : Step s t e r s') (i : Inv s) : Inv s' := by
  obtain ⟨h1, h2, h3, h4, h6, h7, h8, h9, h10⟩ := i
  have a1 : ∀ id t, s.lock id = some t → (s.pc t).seg = some id := fun id t => (h1 id t).1
  have a2 : ∀ id t, (s.pc t).seg = some id → s.lock id = some t := fun id t => (h1 id t).2
  have b1 : ∀ c t, s.rlock c = some t → (s.pc t).cage = some c := fun id t => (h3 id t).1
  have b2 : ∀ c t, (s.pc t).cage = some c → s.rlock c = some t := fun id t => (h3 id t).2
  have l1 : ∀ t c a id, s.pc t = .at2 c a id → s.lock id = some t := by
    intro t c a id h; exact a2 id t (by rw [h]; rfl)
  have l1' : ∀ t c a id, s.pc t = .at3 c a id → s.lock id = some t := by
    intro t c a id h; exact a2 id t (by rw [h]; rfl)
  have l2 : ∀ t c a id, s.pc t = .at2 c a id → s.segs id ≠ none := by
    intro t c a id h; exact h2 id t (by rw [h]; rfl)
  have l3 : ∀ t c a id, s.pc t = .at3 c a id → s.segs id ≠ none := by
    intro t c a id h; exact h2 id t (by rw [h]; rfl)
  have l4 : ∀ t c a id, s.pc t = .dt2 c a id → s.rlock c = some t := by
    intro t c a id h; exact b2 c t (by rw [h]; rfl)
  have l5 : ∀ t c k id, s.pc t = .dt3 c k id → s.rlock c = some t := by
    intro t c a id h; exact b2 c t (by rw [h]; rfl)
  refine ⟨fun id u => ⟨?_, ?_⟩, ?_, fun c u => ⟨?_, ?_⟩, ?_, ?_, ?_, ?_, ?_, ?_⟩
  · clear h1 h2 h3 h4 h6 h7 h8 h9 h10 b1 b2 l2 l3 l4 l5
    cases h <;> first | exact a1 id u | (simp only [St.put, updK_apply]; grind [Pc.seg])
  · clear h1 h2 h3 h4 h6 h7 h8 h9 h10 b1 b2 l2 l3 l4 l5
    cases h <;> first | exact a2 id u | (simp only [St.put, updK_apply]; grind [Pc.seg])
  · clear h1 h3 h4 h7 h9 h10 b1 b2
    cases h <;> first | exact h2 | (simp only [St.put, updK_apply]; grind [Pc.seg])
  · clear h1 h2 h3 h4 h6 h7 h8 h9 h10 a1 a2 l2 l3
    cases h <;> first | exact b1 c u | (simp only [St.put, updK_apply]; grind [Pc.cage])
  · clear h1 h2 h3 h4 h6 h7 h8 h9 h10 a1 a2 l2 l3
    cases h <;> first | exact b2 c u | (simp only [St.put, updK_apply]; grind [Pc.cage])
  · clear h1 h2 h3 h6 h7 h8 h9 h10 a1 a2 b1 b2 l1 l1' l2 l3
    cases h <;> first | exact h4 | (simp only [St.put, updK_apply]; grind)
  · clear h1 h2 h3 h7 h9 h10 a1 a2 b1 b2 l1 l1' l4
    cases h <;> first | exact h6 | (simp only [St.put, updK_apply]; grind)
  · clear h1 h2 h3 h4 h8 h9 h10 a1 a2 b1 b2 l1 l1' l3 l4 l5
    cases h <;> first
      | exact h7
      | (simp only [St.put]; exact h7)
      | (simp only [St.put]; grind [List.mem_of_mem_erase])
  · clear h1 h2 h3 h4 h10 a1 a2 b1 b2 l1 l1' l4 l5
    cases h <;> first | exact h8 | (simp only [St.put, updK_apply]; grind [List.mem_of_mem_erase])
  · clear h1 h2 h3 h4 h10 a1 a2 b1 b2 l1 l1' l4 l5
    cases h <;> first | exact h9 | (simp only [St.put, updK_apply]; grind)
  · clear h1 h2 h3 h4 h9 a1 a2 b1 b2 l1 l1' l4 l5
    cases h <;> first | exact h10 | (simp only [St.put, updK_apply]; grind)

/-! ## The number of attachments -/

/-- How many elements of a list are attachments of a segment. -/
def cnt (l : List Att) (id : Nat) : Nat := l.countP (fun a => a.id = id)

/-- How many attachments of a segment the cages have. -/
def St.attached (s : St) (id : Nat) : Nat := cnt s.rev id

theorem cnt_erase (l : List Att) (c a id id' : Nat) (h : (⟨c, a, id⟩ : Att) ∈ l) :
    cnt (l.erase ⟨c, a, id⟩) id' + (if id = id' then 1 else 0) = cnt l id' := by
  have hp := List.perm_cons_erase h
  have := hp.countP_eq (fun a => decide (a.id = id'))
  simp only [cnt]
  rw [this, List.countP_cons]
  by_cases e : id = id' <;> simp [e]

theorem cnt_cons (l : List Att) (c a id id' : Nat) :
    cnt (⟨c, a, id⟩ :: l) id' = cnt l id' + (if id = id' then 1 else 0) := by
  simp [cnt, List.countP_cons]

theorem cnt_zero {l : List Att} {id : Nat} (h : ∀ a ∈ l, a.id ≠ id) : cnt l id = 0 := by
  simp only [cnt, List.countP_eq_zero]
  intro a ha; simpa using h a ha

theorem cnt_pos {l : List Att} {a : Att} (h : a ∈ l) : 0 < cnt l a.id := by
  simp only [cnt, List.countP_pos_iff]
  exact ⟨a, h, by simp⟩

structure Counts (s : St) : Prop where
  free : ∀ id g, s.segs id = some g → s.lock id = none → g.nattch = cnt s.rev id
  at2 : ∀ t c a id g, s.pc t = .at2 c a id → s.segs id = some g → g.nattch = cnt s.rev id
  at3 : ∀ t c a id g, s.pc t = .at3 c a id → s.segs id = some g → g.nattch + 1 = cnt s.rev id

theorem Counts.init : Counts init := by
  constructor <;> simp [ShmConc.init]

theorem Counts.step {s s' : St} {t e r} (h : Step s t e r s') (i : Inv s) (k : Counts s) : Counts s' := by
  obtain ⟨k1, k2, k3⟩ := k
  have a2 := fun id t => (i.has id t).2
  have a1 := fun id t => (i.has id t).1
  have l1 : ∀ t c a id, s.pc t = .at2 c a id → s.lock id = some t := by
    intro t c a id h; exact a2 id t (by rw [h]; rfl)
  have l1' : ∀ t c a id, s.pc t = .at3 c a id → s.lock id = some t := by
    intro t c a id h; exact a2 id t (by rw [h]; rfl)
  have z : ∀ t k id, s.pc t = .get2 k id → cnt s.rev id = 0 :=
    fun t k id h => cnt_zero (i.making t k id h).2.2
  have er : ∀ t c a id id', s.pc t = .dt2 c a id →
      cnt (s.rev.erase ⟨c, a, id⟩) id' + (if id = id' then 1 else 0) = cnt s.rev id' :=
    fun t c a id id' h => cnt_erase _ _ _ _ _ (i.found t c a id h)
  clear i
  cases h <;> first
    | exact ⟨k1, k2, k3⟩
    | (constructor <;> simp only [St.put, updK_apply, cnt_cons] <;> grind [Pc.seg])

theorem both {P : St → Ev → Prop} {s : St} (h : Run P ShmConc.init s) : Inv s ∧ Counts s := by
  generalize hi : ShmConc.init = s0 at h
  induction h with
  | refl => subst hi; exact ⟨.init, .init⟩
  | tail _ _ hs ih => exact ⟨ih.1.step hs, ih.2.step hs ih.1⟩

/-! ## Attachments of segments that exist -/

structure Alive (s : St) : Prop where
  al : ∀ a ∈ s.rev, s.segs a.id ≠ none
  rm : ∀ t k id, s.pc t = .rm2 id k → s.lock id = none ∧ ∀ g, s.segs id = some g → g.nattch = 0

theorem Alive.step {s s' : St} {t e r} (h : Step s t e r s') (i : Inv s) (k : Counts s)
    (turn : ∀ c id a, e = .at c id a → ∀ t k, s.pc t ≠ .rm2 id k) (al : Alive s) : Alive s' := by
  obtain ⟨al, rm⟩ := al
  have l2 : ∀ t c a id, s.pc t = .at2 c a id → s.lock id = some t := by
    intro t c a id h; exact (i.has id t).2 (by rw [h]; rfl)
  have l3 : ∀ t c a id, s.pc t = .at3 c a id → s.lock id = some t := by
    intro t c a id h; exact (i.has id t).2 (by rw [h]; rfl)
  have v2 : ∀ t c a id, s.pc t = .at2 c a id → s.segs id ≠ none := by
    intro t c a id h; exact i.live id t (by rw [h]; rfl)
  have fr := k.free
  have er : ∀ t c a id id', s.pc t = .dt2 c a id →
      cnt (s.rev.erase ⟨c, a, id⟩) id' + (if id = id' then 1 else 0) = cnt s.rev id' :=
    fun t c a id id' h => cnt_erase _ _ _ _ _ (i.found t c a id h)
  have ps : ∀ a ∈ s.rev, 0 < cnt s.rev a.id := fun a h => cnt_pos h
  have pe : ∀ b, ∀ a ∈ s.rev.erase b, 0 < cnt (s.rev.erase b) a.id := fun b a h => cnt_pos h
  have mk := i.making
  have rz : ∀ t k a, s.pc t = .rm2 a.id k → a ∉ s.rev := by
    intro t k a h ha
    obtain ⟨h1, h2⟩ := rm t k a.id h
    cases hg : s.segs a.id with
    | none => exact al a ha hg
    | some g => have := ps a ha; have := fr a.id g hg h1; have := h2 g hg; omega
  clear i k
  cases h <;> first
    | exact ⟨al, rm⟩
    | (constructor <;> simp only [St.put, updK_apply] <;> grind [List.mem_of_mem_erase])

/-! ## Keys -/

/-- The key a thread is about to remove. -/
def Pc.removes : Pc → Option Int
  | .dt3 _ k _ => some k
  | .rm3 k => some k
  | _ => none

/-- The key of the segment with an identifier. -/
def St.keyOf (s : St) (id : Nat) : Option Int := (s.segs id).map (·.key)

structure Keys (s : St) : Prop where
  rm : ∀ t id k g, s.pc t = .rm2 id k → s.segs id = some g → g.key = k
  rm' : ∀ t id k, s.pc t = .rm2 id k → id < s.next ∧ ∀ t' k', s.pc t' ≠ .get2 k' id
  ok : ∀ k id, s.keys k = some id → (∀ t, s.pc t ≠ .get2 k id) → (∀ t, (s.pc t).removes ≠ some k) →
    s.keyOf id = some k

theorem Keys.init : Keys init := by
  constructor <;> simp [ShmConc.init]

theorem Keys.step {s s' : St} {t e r} (h : Step s t e r s') (i : Inv s) (k : Keys s) : Keys s' := by
  obtain ⟨k1, k2, k3⟩ := k
  have mk := i.making
  have mr := i.maker
  have fr := i.fresh
  have k1' : ∀ t id k k', s.pc t = .rm2 id k → (s.segs id).map (·.key) = some k' → k' = k := by
    intro t id k k' h h'
    cases hg : s.segs id with
    | none => rw [hg] at h'; cases h'
    | some g => rw [hg] at h'; cases h'; exact k1 t id k g h hg
  clear i
  cases h <;> first
    | exact ⟨k1, k2, k3⟩
    | (constructor <;> simp only [St.put, updK_apply, St.keyOf] at * <;> grind [Pc.removes])

end Verif.ShmConc
