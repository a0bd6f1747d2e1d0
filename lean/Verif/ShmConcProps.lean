import Verif.ShmConcLemmas

/-!
# Shared memory calls by several threads: properties (C82)

The claims are about every number of threads and cages and every interleaving of their steps.  `St.attached s id` counts
the attachments in the lists of the cages, not in the segment.
-/

namespace Verif.ShmConc

/-- No call is in progress. -/
def St.Quiet (s : St) : Prop := ∀ t, s.pc t = .idle

/-- No attachment is begun while a removal of the segment is in progress. -/
def AtTurn (s : St) (e : Ev) : Prop := ∀ c id a, e = .at c id a → ∀ t k, s.pc t ≠ .rm2 id k

/-- A thread is removing the segment of key `k`, or has removed it and is about to remove the key. -/
def Pc.Removing (p : Pc) (k : Int) : Prop := (∃ id, p = .rm2 id k) ∨ p = .rm3 k ∨ ∃ c id, p = .dt3 c k id

/-- No `shmget` is begun while the removal of the segment of its key is in progress. -/
def GetTurn (s : St) (e : Ev) : Prop := ∀ k x y, e = .get k x y → ∀ t, ¬ (s.pc t).Removing k

/-- No attachment is begun while a detachment of the same cage is in progress, and no detachment while an attachment
waits for the list of its cage. -/
def Calm (s : St) (e : Ev) : Prop :=
  (∀ c id a, e = .at c id a → ∀ t, (∀ x y, s.pc t ≠ .dt2 c x y) ∧ ∀ x y, s.pc t ≠ .dt3 c x y) ∧
    ∀ c a, e = .dt c a → ∀ t x y, s.pc t ≠ .at2 c x y

/-! ## Every interleaving -/

/-- The count `IPC_STAT` reads (it waits for the segment like the others) is the number of attachments the cages
have. -/
theorem conc_count {P : St → Ev → Prop} {s : St} (h : Run P init s) (id : Nat) (g : Seg) (hg : s.segs id = some g)
    (hl : s.lock id = none) : g.nattch = s.attached id :=
  (both h).2.free id g hg hl

/-- Identifier `id` has been given out, and nobody is putting a segment there. -/
def St.Given (s : St) (id : Nat) : Prop := id < s.next ∧ ∀ t k, s.pc t ≠ .get2 k id

theorem Given.step {s s' : St} {t e r id} (h : Step s t e r s') (g : s.Given id) : s'.Given id := by
  obtain ⟨g1, g2⟩ := g
  cases h <;> first
    | exact ⟨g1, g2⟩
    | (refine ⟨?_, ?_⟩ <;> simp only [St.put, updK_apply] <;> grind)

theorem Given.run {P : St → Ev → Prop} {s s' : St} {id} (h : Run P s s') (g : s.Given id) : s'.Given id := by
  induction h with
  | refl => exact g
  | tail _ _ hs ih => exact Given.step hs ih

/-- A segment is put where one was put before by nobody: the identifier with which `shmget` returns after making a
segment is not given to another one, however the calls interleave. -/
theorem conc_ids {P : St → Ev → Prop} {s s1 s2 : St} {t t' k k' id id' r} (h : Run Any init s)
    (ht : s.pc t = .get2 k id) (hs : Step s t .go r s1) (hr : Run P s1 s2)
    (ht' : s2.pc t' = .get2 k' id') : r = some (.ok id) ∧ id' ≠ id := by
  have i := (both h).1
  have : r = some (.ok id) ∧ s1.Given id := by
    cases hs with
    | getPut h1 h2 =>
      rw [ht] at h1; cases h1
      refine ⟨rfl, (i.making t k id ht).1, fun u j hu => ?_⟩
      by_cases e : u = t
      · subst e; simp [St.put] at hu
      · simp only [St.put, updK_ne _ _ e] at hu
        exact e (i.maker u t j k id hu ht)
    | atPush h1 => rw [ht] at h1; cases h1
    | atMap h1 => rw [ht] at h1; cases h1
    | dtPanic h1 => rw [ht] at h1; cases h1
    | dtKeep h1 => rw [ht] at h1; cases h1
    | dtLast h1 => rw [ht] at h1; cases h1
    | dtKey h1 => rw [ht] at h1; cases h1
    | rmSeg h1 => rw [ht] at h1; cases h1
    | rmKey h1 => rw [ht] at h1; cases h1
  refine ⟨this.1, ?_⟩
  rintro rfl
  exact (Given.run hr this.2).2 t' k' ht'

/-- A segment that is gone does not come back: every later `shmat` and `IPC_RMID` of its identifier answers
`EINVAL`. -/
theorem conc_gone {P : St → Ev → Prop} {s s' : St} {id} (g : s.Given id) (hn : s.segs id = none) (h : Run P s s')
    {t e r s2} (hs : Step s' t e r s2) (he : e = .rm id ∨ ∃ c a, e = .at c id a) :
    s'.segs id = none ∧ r = some (.err .EINVAL) ∧ s2 = s' := by
  have key : s'.Given id ∧ s'.segs id = none := by
    clear hs he
    induction h with
    | refl => exact ⟨g, hn⟩
    | tail _ _ hs ih =>
      refine ⟨Given.step hs ih.1, ?_⟩
      obtain ⟨⟨g1, g2⟩, h0⟩ := ih
      cases hs <;> first
        | exact h0
        | (simp only [St.put, updK_apply]; grind)
  refine ⟨key.2, ?_⟩
  have n := key.2
  rcases he with rfl | ⟨c, a, rfl⟩
  · cases hs with
    | rmNone => exact ⟨rfl, rfl⟩
    | rmMark _ h1 => rw [n] at h1; cases h1
    | rmDrop _ h1 => rw [n] at h1; cases h1
  · cases hs with
    | atNone => exact ⟨rfl, rfl⟩
    | atLock _ h1 => exact absurd n h1

theorem keys_inv {P : St → Ev → Prop} {s : St} (h : Run P init s) : Keys s := by
  generalize hi : init = s0 at h
  induction h with
  | refl => subst hi; exact .init
  | tail hr _ hs ih => exact ih.step hs (both (hi ▸ hr)).1

/-- The identifier `shmget` returns for a key that is in use is that of a segment with that key, unless another thread
is making that segment or is about to remove the key. -/
theorem conc_get_partial {P : St → Ev → Prop} {s s' : St} {t k x y} {id : Nat} (h : Run P init s)
    (hs : Step s t (.get k x y) (some (.ok id)) s') (hm : ∀ u, s.pc u ≠ .get2 k id)
    (hr : ∀ u, s.pc u ≠ .rm3 k ∧ ∀ c j, s.pc u ≠ .dt3 c k j) : ∃ g, s.segs id = some g ∧ g.key = k := by
  cases hs with
  | getThere _ hk =>
    have := (keys_inv h).ok k _ hk hm (fun u hu => by
      obtain ⟨h1, h2⟩ := hr u
      cases hp : s.pc u <;> rw [hp] at hu h1 h2 <;> simp [Pc.removes] at hu h1 h2
      · exact h2 hu
      · exact h1 hu)
    simp only [St.keyOf, Option.map_eq_some_iff] at this
    exact this

/-! ## Attachments, as long as none is begun during a removal -/

theorem alive {s : St} (h : Run AtTurn init s) : Alive s := by
  generalize hi : init = s0 at h
  induction h with
  | refl => subst hi; constructor <;> simp [init]
  | tail hr ht hs ih =>
    have b := both (hi ▸ hr)
    exact ih.step hs b.1 b.2 ht

/-- What is attached exists: `IPC_RMID` keeps the segment until the last detachment, and no `shmdt` panics, as
long as no attachment is begun while a removal of the same segment is in progress.  `attached_violated` shows what happens
otherwise. -/
theorem conc_attached_partial {s : St} (h : Run AtTurn init s) (a : Att) (ha : a ∈ s.rev) : s.segs a.id ≠ none :=
  (alive h).al a ha

theorem conc_no_panic_partial {s s' : St} {t e r} (h : Run AtTurn init s) (hs : Step s t e r s') : r ≠ some .panic := by
  cases hs <;> first
    | (intro hc; cases hc; done)
    | skip
  rename_i c addr id hp hl hn
  exact absurd hn ((alive h).al ⟨c, addr, id⟩ ((both h).1.found t c addr id hp))

/-! ## Keys, as long as no `shmget` is begun during a removal -/

structure Found (s : St) : Prop where
  key : ∀ id g, s.segs id = some g → s.keys g.key = some id
  made : ∀ t k id, s.pc t = .get2 k id → s.keys k = some id
  rm : ∀ t k, (s.pc t).removes = some k → ∀ id g, s.segs id = some g → g.key ≠ k
  rmk : ∀ t k, (s.pc t).removes = some k → ∀ t' id, s.pc t' ≠ .get2 k id
  rm2 : ∀ t id k, s.pc t = .rm2 id k → ∀ id' g, s.segs id' = some g → g.key = k → id' = id
  rm2k : ∀ t id k, s.pc t = .rm2 id k → ∀ t' id', s.pc t' ≠ .get2 k id'

theorem Found.step {s s' : St} {t e r} (h : Step s t e r s') (i : Inv s) (ks : Keys s) (turn : GetTurn s e)
    (f : Found s) : Found s' := by
  obtain ⟨f1, f2, f3, f4, f5, f6⟩ := f
  have t1 : ∀ k x y, e = .get k x y → ∀ t id, s.pc t ≠ .rm2 id k := fun k x y h t id hp => turn k x y h t (.inl ⟨id, hp⟩)
  have t2 : ∀ k x y, e = .get k x y → ∀ t, (s.pc t).removes ≠ some k := by
    intro k x y h t hp
    refine turn k x y h t ?_
    cases hq : s.pc t <;> rw [hq] at hp <;> simp [Pc.removes] at hp
    · subst hp; exact .inr (.inr ⟨_, _, rfl⟩)
    · subst hp; exact .inr (.inl rfl)
  have mk := i.making
  have fr := i.fresh
  have k1 := ks.rm
  have fk := i.freshK
  have q3 : ∀ t c k j, s.pc t = .dt3 c k j → ∀ id g, s.segs id = some g → g.key ≠ k :=
    fun t c k j h => f3 t k (by rw [h]; rfl)
  have q3' : ∀ t k, s.pc t = .rm3 k → ∀ id g, s.segs id = some g → g.key ≠ k :=
    fun t k h => f3 t k (by rw [h]; rfl)
  have q4 : ∀ t c k j, s.pc t = .dt3 c k j → ∀ t' id, s.pc t' ≠ .get2 k id :=
    fun t c k j h => f4 t k (by rw [h]; rfl)
  have q4' : ∀ t k, s.pc t = .rm3 k → ∀ t' id, s.pc t' ≠ .get2 k id :=
    fun t k h => f4 t k (by rw [h]; rfl)
  clear i ks turn
  refine ⟨?_, ?_, ?_, ?_, ?_, ?_⟩
  · cases h <;> first | exact f1 | (simp only [St.put, updK_apply]; grind)
  · cases h <;> first | exact f2 | (simp only [St.put, updK_apply]; grind)
  · cases h <;> first | exact f3 | (simp only [St.put, updK_apply]; grind [Pc.removes])
  · cases h <;> first | exact f4 | (simp only [St.put, updK_apply]; grind [Pc.removes])
  · cases h <;> first | exact f5 | (simp only [St.put, updK_apply]; grind)
  · cases h <;> first | exact f6 | (simp only [St.put, updK_apply]; grind)

theorem found {s : St} (h : Run GetTurn init s) : Found s := by
  generalize hi : init = s0 at h
  induction h with
  | refl => subst hi; constructor <;> simp [init, Pc.removes]
  | tail hr ht hs ih =>
    have b := both (hi ▸ hr)
    exact ih.step hs b.1 (keys_inv (hi ▸ hr)) ht

/-- Every segment can be found by its key, so that no two have the same key, as long as no `shmget` of a key is begun
while a removal of its segment is in progress.  `key_lost_violated` shows what happens otherwise. -/
theorem conc_found_partial {s : St} (h : Run GetTurn init s) :
    (∀ id g, s.segs id = some g → s.keys g.key = some id) ∧
      ∀ id id' g g', s.segs id = some g → s.segs id' = some g' → g.key = g'.key → id = id' := by
  have f := found h
  refine ⟨f.key, fun id id' g g' h1 h2 e => ?_⟩
  have a := f.key id g h1
  have b := f.key id' g' h2
  rw [e, b] at a
  exact (Option.some.inj a).symm

/-! ## Getting on -/

theorem calm {s : St} (h : Run Calm init s) (t t' : Nat) (c x y : Nat) (ht : s.pc t = .at2 c x y) :
    (s.pc t').cage ≠ some c := by
  suffices ∀ t t' c x y, s.pc t = .at2 c x y → (s.pc t').cage ≠ some c from this t t' c x y ht
  clear ht
  generalize hi : init = s0 at h
  induction h with
  | refl => subst hi; simp [init]
  | @tail s1 u e r s2 hr ht hs ih =>

    obtain ⟨t1, t2⟩ := ht
    have t1' : ∀ c id a, e = .at c id a → ∀ t, (s1.pc t).cage ≠ some c := by
      intro c id a h t hp
      obtain ⟨h1, h2⟩ := t1 c id a h t
      cases hq : s1.pc t <;> rw [hq] at hp h1 h2 <;> simp [Pc.cage] at hp h1 h2
      · exact h1 hp
      · exact h2 hp
    clear t1 hr
    cases hs <;> first
      | exact ih
      | (simp only [St.put, updK_apply]; grind [Pc.cage])

/-- Threads do not block one another for ever: if a call is in progress some thread can take its next step, as long as
`shmat` and `shmdt` of one cage are not in progress at once.  `deadlock_violated` shows what happens otherwise. -/
theorem conc_progress_partial {s : St} (h : Run Calm init s) (t : Nat) (ht : s.pc t ≠ .idle) (hd : s.pc t ≠ .dead) :
    ∃ t' r s', Step s t' .go r s' := by
  have i := (both h).1
  by_cases hl : ∃ id u, s.lock id = some u
  · obtain ⟨id, u, hu⟩ := hl
    have hs := (i.has id u).1 hu
    cases hp : s.pc u with
    | at2 c a j =>
      refine ⟨u, _, _, Step.atPush hp ?_⟩
      cases hr : s.rlock c with
      | none => rfl
      | some w => exact absurd ((i.hasR c w).1 hr) (calm h u w c a j hp)
    | at3 c a j =>
      cases hg : s.segs j with
      | none => exact absurd hg (i.live j u (by rw [hp]; rfl))
      | some g => exact ⟨u, _, _, Step.atMap hp hg⟩
    | _ => rw [hp] at hs; simp [Pc.seg] at hs
  · have no : ∀ id, s.lock id = none := by
      intro id
      cases hq : s.lock id with
      | none => rfl
      | some u => exact absurd ⟨id, u, hq⟩ hl
    have nos : ∀ id, (s.pc t).seg ≠ some id := fun id hx => by
      have := (i.has id t).2 hx; rw [no id] at this; cases this
    cases hp : s.pc t with
    | idle => exact absurd hp ht
    | dead => exact absurd hp hd
    | get2 k id => exact ⟨t, _, _, Step.getPut hp (no id)⟩
    | at2 c a j => exact absurd (by rw [hp]; rfl) (nos j)
    | at3 c a j => exact absurd (by rw [hp]; rfl) (nos j)
    | dt2 c a id =>
      cases hg : s.segs id with
      | none => exact ⟨t, _, _, Step.dtPanic hp (no id) hg⟩
      | some g =>
        by_cases hc : g.rmid = true ∧ g.nattch - 1 = 0
        · exact ⟨t, _, _, Step.dtLast hp (no id) hg hc.1 hc.2⟩
        · exact ⟨t, _, _, Step.dtKeep hp (no id) hg hc⟩
    | dt3 c k id => exact ⟨t, _, _, Step.dtKey hp⟩
    | rm2 id k => exact ⟨t, _, _, Step.rmSeg hp (no id)⟩
    | rm3 k => exact ⟨t, _, _, Step.rmKey hp⟩

/-- How many steps a thread is at most from the end of its call. -/
def Pc.left : Pc → Nat
  | .idle | .dead => 0
  | .get2 _ _ | .at3 _ _ _ | .dt3 _ _ _ | .rm3 _ => 1
  | .at2 _ _ _ | .dt2 _ _ _ | .rm2 _ _ => 2

/-- Every step of a call in progress brings it nearer to its end, and leaves the other threads where they are: a call
takes at most three steps. -/
theorem conc_steps {s s' : St} {t e r} (hs : Step s t e r s') :
    (e = .go → (s'.pc t).left < (s.pc t).left) ∧ (s'.pc t).left ≤ 2 ∧ (r ≠ none ↔ (s'.pc t).left = 0) ∧
      ∀ u, u ≠ t → s'.pc u = s.pc u := by
  cases hs <;> simp_all [St.put, Pc.left]

end Verif.ShmConc
