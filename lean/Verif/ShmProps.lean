import Verif.Shm

/-!
# Properties of shared memory (C34, C35)
-/

set_option linter.unusedSimpArgs false

namespace Verif.Shm

/-! ## Specification -/

/-- An attachment: who, where, of what. -/
structure Att where
  cage : Nat
  addr : Nat
  id : Nat
  deriving DecidableEq, Repr

/-- The attachments after a call by `c` with this answer: `shmat` makes one, `shmdt` ends one, `fork` gives the child a
copy of each of the parent's, `exec` and `exit` end all of the caller's. -/
def attAfter (A : List Att) (c : Nat) : Op → Out → List Att
  | .at id addr _, .r (.ok _) => ⟨c, addr, id⟩ :: A
  | .dt addr, .r (.ok id) => A.erase ⟨c, addr, id.toNat⟩
  | .fork ch, .r (.ok _) => (A.filter (fun a => a.cage == c)).map (fun a => { a with cage := ch }) ++ A
  | .exec _, .r (.ok _) => A.filter (fun a => a.cage != c)
  | .exit, .r (.ok _) => A.filter (fun a => a.cage != c)
  | _, _ => A

/-- The state and the attachments there are. -/
structure Sys where
  st : State
  atts : List Att

def Sys.init : Sys := { st := Shm.init, atts := [] }

def Sys.step (s : Sys) (c : Nat) (op : Op) : Sys :=
  { st := (Shm.step s.st c op).1, atts := attAfter s.atts c op (Shm.step s.st c op).2 }

/-- What the callers respect: cage numbers given to fork and exec are not those of another cage, and the host's `mmap`
succeeds (`mmap_violated`, `fork_violated`). -/
def Clean (s : State) (c : Nat) : Op → Prop
  | .at _ _ host => host = true
  | .fork ch => s.rev ch = none
  | .exec ch => ch = c ∨ s.rev ch = none
  | _ => True

/-- States reached by such calls. -/
inductive Reach : Sys → Prop
  | init : Reach .init
  | step {s c op} : Reach s → Clean s.st c op → Reach (s.step c op)

/-- How many attachments a segment has. -/
def total (A : List Att) (id : Nat) : Nat := A.countP (fun a => a.id == id)

/-- How many of them are of one cage. -/
def ofCage (A : List Att) (c id : Nat) : Nat := A.countP (fun a => a.cage == c && a.id == id)

/-! ## Invariant -/

/-- A count as `attached_cages` stores it. -/
def asEntry (n : Nat) : Option Nat := if n = 0 then none else some n

structure Core (s : State) (A : List Att) (skip : Option Nat) : Prop where
  nattch : ∀ id g, s.segs id = some g → g.nattch = total A id
  att : ∀ id g, s.segs id = some g → ∀ c, skip ≠ some c → g.att c = asEntry (ofCage A c id)
  rm : ∀ id g, s.segs id = some g → g.rmid = true → 0 < total A id
  live : ∀ a ∈ A, s.segs a.id ≠ none
  key : ∀ k id, s.keys k = some id ↔ ∃ g, s.segs id = some g ∧ g.key = k
  bound : ∀ id, s.segs id ≠ none → id < s.next

structure Inv (s : Sys) : Prop where
  core : Core s.st s.atts none
  rev : ∀ c l, s.st.rev c = some l → (l.map (fun u => (⟨c, u.1, u.2⟩ : Att))).Perm (s.atts.filter (fun a => a.cage == c))
  gone : ∀ c, s.st.rev c = none → ∀ a ∈ s.atts, a.cage ≠ c

theorem total_cons (a : Att) (A : List Att) (id : Nat) : total (a :: A) id = total A id + if a.id = id then 1 else 0 := by
  simp only [total, List.countP_cons]; congr 1; simp

theorem ofCage_cons (a : Att) (A : List Att) (c id : Nat) :
    ofCage (a :: A) c id = ofCage A c id + if a.cage = c ∧ a.id = id then 1 else 0 := by
  simp only [ofCage, List.countP_cons]; congr 1; simp

theorem total_append (A B : List Att) (id : Nat) : total (A ++ B) id = total A id + total B id := by
  simp only [total, List.countP_append]

theorem ofCage_append (A B : List Att) (c id : Nat) : ofCage (A ++ B) c id = ofCage A c id + ofCage B c id := by
  simp only [ofCage, List.countP_append]

theorem total_pos {A : List Att} {id : Nat} : 0 < total A id ↔ ∃ a ∈ A, a.id = id := by
  simp only [total, List.countP_pos_iff, beq_iff_eq]

theorem ofCage_pos {A : List Att} {c id : Nat} : 0 < ofCage A c id ↔ ∃ a ∈ A, a.cage = c ∧ a.id = id := by
  simp only [ofCage, List.countP_pos_iff, Bool.and_eq_true, beq_iff_eq]

theorem Core.perm {s : State} {A B : List Att} {k : Option Nat} (h : Core s A k) (hp : A.Perm B) : Core s B k := by
  have h1 : ∀ id, total B id = total A id := fun id => (hp.countP_eq _).symm
  have h2 : ∀ c id, ofCage B c id = ofCage A c id := fun c id => (hp.countP_eq _).symm
  exact ⟨fun id g e => by rw [h1]; exact h.nattch id g e, fun id g e c hc => by rw [h2]; exact h.att id g e c hc,
    fun id g e r => by rw [h1]; exact h.rm id g e r, fun a ha => h.live a (hp.mem_iff.2 ha), h.key, h.bound⟩

/-- The part of the state `Core` is about. -/
theorem Core.rev_irrel {s : State} {A : List Att} {k : Option Nat} (h : Core s A k) (r : Nat → Option (List (Nat × Nat))) :
    Core { s with rev := r } A k := ⟨h.nattch, h.att, h.rm, h.live, h.key, h.bound⟩

/-! ### Storing a segment -/

/-- A segment with one attachment fewer. -/
theorem Core.put {s : State} {A A' : List Att} {sk sk' : Option Nat} {id : Nat} {g g' : Seg} (h : Core s A sk)
    (hg : s.segs id = some g) (hk : g'.key = g.key)
    (ht : ∀ i, i ≠ id → total A' i = total A i) (hn : g'.nattch = total A' id)
    (ho : ∀ i c, i ≠ id → sk' ≠ some c → sk ≠ some c ∧ ofCage A' c i = ofCage A c i)
    (ha : ∀ c, sk' ≠ some c → g'.att c = asEntry (ofCage A' c id))
    (hsub : ∀ a ∈ A', a ∈ A ∨ a.id = id) : Core (s.putSeg id g') A' sk' := by
  have bound : id < s.next := h.bound id (by rw [hg]; simp)
  unfold State.putSeg
  split
  · rename_i hz
    have hA : ∀ a ∈ A', a.id ≠ id := by
      intro a hm e
      have : 0 < total A' id := total_pos.2 ⟨a, hm, e⟩
      omega
    refine ⟨?_, ?_, ?_, ?_, ?_, ?_⟩
    · intro i x hx
      by_cases e : i = id
      · subst e; simp at hx
      · simp only [upd_ne _ _ e] at hx
        rw [ht i e]; exact h.nattch i x hx
    · intro i x hx c hc
      by_cases e : i = id
      · subst e; simp at hx
      · simp only [upd_ne _ _ e] at hx
        rw [(ho i c e hc).2]; exact h.att i x hx c (ho i c e hc).1
    · intro i x hx hr
      by_cases e : i = id
      · subst e; simp at hx
      · simp only [upd_ne _ _ e] at hx
        rw [ht i e]; exact h.rm i x hx hr
    · intro a hm
      simp only [upd_ne _ _ (hA a hm)]
      rcases hsub a hm with hm' | e
      · exact h.live a hm'
      · exact absurd e (hA a hm)
    · intro k i
      simp only [updK_apply, upd_apply]
      by_cases ek : k = g'.key
      · rw [if_pos ek]
        constructor
        · intro e; cases e
        · rintro ⟨x, hx, e⟩
          split at hx
          · cases hx
          · rename_i hne
            have h1 := (h.key k i).2 ⟨x, hx, e⟩
            have h2 := (h.key k id).2 ⟨g, hg, by rw [ek, hk]⟩
            rw [h1] at h2
            exact absurd (Option.some.inj h2) hne
      · rw [if_neg ek, h.key]
        constructor
        · rintro ⟨x, hx, e⟩
          have hne : i ≠ id := by
            rintro rfl
            rw [hg] at hx; cases hx
            exact ek (by rw [← e, hk])
          exact ⟨x, by rw [if_neg hne]; exact hx, e⟩
        · rintro ⟨x, hx, e⟩
          split at hx
          · cases hx
          · exact ⟨x, hx, e⟩
    · intro i hi
      by_cases e : i = id
      · subst e; exact bound
      · simp only [upd_ne _ _ e] at hi
        exact h.bound i hi
  · rename_i hz
    refine ⟨?_, ?_, ?_, ?_, ?_, ?_⟩
    · intro i x hx
      by_cases e : i = id
      · subst e; simp at hx; subst hx; exact hn
      · simp only [upd_ne _ _ e] at hx
        rw [ht i e]; exact h.nattch i x hx
    · intro i x hx c hc
      by_cases e : i = id
      · subst e; simp at hx; subst hx; exact ha c hc
      · simp only [upd_ne _ _ e] at hx
        rw [(ho i c e hc).2]; exact h.att i x hx c (ho i c e hc).1
    · intro i x hx hr
      by_cases e : i = id
      · subst e; simp at hx; subst hx
        rw [← hn]
        have : ¬ g'.nattch = 0 := fun e => hz ⟨hr, e⟩
        omega
      · simp only [upd_ne _ _ e] at hx
        rw [ht i e]; exact h.rm i x hx hr
    · intro a hm
      by_cases e : a.id = id
      · simp [e]
      · simp only [upd_ne _ _ e]
        rcases hsub a hm with hm' | e'
        · exact h.live a hm'
        · exact absurd e' e
    · intro k i
      rw [h.key]
      simp only [upd_apply]
      constructor
      · rintro ⟨x, hx, e⟩
        by_cases e' : i = id
        · subst e'
          rw [hg] at hx; cases hx
          exact ⟨g', by simp, by rw [hk, e]⟩
        · exact ⟨x, by rw [if_neg e']; exact hx, e⟩
      · rintro ⟨x, hx, e⟩
        split at hx
        · rename_i e'
          subst e'
          cases hx
          exact ⟨g, hg, by rw [← hk, e]⟩
        · exact ⟨x, hx, e⟩
    · intro i hi
      by_cases e : i = id
      · subst e; exact bound
      · simp only [upd_ne _ _ e] at hi
        exact h.bound i hi

theorem putSeg_rev (s : State) (id : Nat) (g : Seg) : (s.putSeg id g).rev = s.rev := by
  unfold State.putSeg; split <;> rfl

theorem putSeg_next (s : State) (id : Nat) (g : Seg) : (s.putSeg id g).next = s.next := by
  unfold State.putSeg; split <;> rfl

theorem putSeg_same {s : State} {id : Nat} {g : Seg} {x : Seg} (h : (s.putSeg id g).segs id = some x) : x = g := by
  unfold State.putSeg at h
  split at h <;> simp at h
  exact h.symm

theorem putSeg_ne {s : State} {id i : Nat} {g : Seg} (h : i ≠ id) : (s.putSeg id g).segs i = s.segs i := by
  unfold State.putSeg; split <;> simp [upd_ne _ _ h]

/-! ### The loop of exit and exec -/

/-- One mapping of cage `c` goes; afterwards the entry of `c` in that segment is empty. -/
theorem unmapAll_spec (c : Nat) : ∀ (l : List (Nat × Nat)) (s : State) (A : List Att),
    Core s (l.map (fun u => (⟨c, u.1, u.2⟩ : Att)) ++ A) (some c) →
    (∀ id g, s.segs id = some g → g.att c = none ∨ ∃ u ∈ l, u.2 = id) →
    ∃ s', unmapAll c l s = some s' ∧ Core s' A (some c) ∧ (∀ id g, s'.segs id = some g → g.att c = none) ∧
      s'.rev = s.rev ∧ s'.next = s.next := by
  intro l
  induction l with
  | nil =>
    intro s A h h2
    refine ⟨s, rfl, h, ?_, rfl, rfl⟩
    intro id g hg
    rcases h2 id g hg with e | ⟨u, hu, -⟩
    · exact e
    · simp at hu
  | cons u us ih =>
    intro s A h h2
    have hl : s.segs u.2 ≠ none := h.live ⟨c, u.1, u.2⟩ (by simp)
    obtain ⟨g, hg⟩ := Option.ne_none_iff_exists'.1 hl
    have hn := h.nattch u.2 g hg
    simp only [List.map_cons, List.cons_append, total_cons, if_true] at hn
    have hone : unmapOne s c u.2 = some (s.putSeg u.2 { g with nattch := g.nattch - 1, att := upd g.att c none }) := by
      simp only [unmapOne, hg]
      rw [if_neg (by omega)]
    simp only [unmapAll, hone]
    have hcore : Core (s.putSeg u.2 { g with nattch := g.nattch - 1, att := upd g.att c none })
        (us.map (fun u => (⟨c, u.1, u.2⟩ : Att)) ++ A) (some c) := by
      refine h.put (g := g) hg rfl ?_ ?_ ?_ ?_ ?_
      · intro i hi
        simp only [List.map_cons, List.cons_append, total_cons]
        rw [if_neg (Ne.symm hi)]; omega
      · simp only; omega
      · intro i d hi hd
        refine ⟨hd, ?_⟩
        simp only [List.map_cons, List.cons_append, ofCage_cons]
        rw [if_neg (fun e => hi e.2.symm)]; omega
      · intro d hd
        have hdc : d ≠ c := fun e => hd (by rw [e])
        simp only [upd_ne _ _ hdc]
        rw [h.att u.2 g hg d hd]
        simp only [List.map_cons, List.cons_append, ofCage_cons]
        rw [if_neg (fun e => hdc e.1.symm)]; rfl
      · intro a ha; exact .inl (by simp only [List.map_cons, List.cons_append, List.mem_cons]; exact .inr ha)
    obtain ⟨s', e1, e2, e3, e4, e5⟩ := ih _ A hcore (by
      intro id x hx
      by_cases e : id = u.2
      · subst e
        have := putSeg_same hx
        subst this
        exact .inl (by simp)
      · rw [putSeg_ne e] at hx
        rcases h2 id x hx with e' | ⟨v, hv, e'⟩
        · exact .inl e'
        · rcases List.mem_cons.1 hv with rfl | hv
          · exact absurd e'.symm e
          · exact .inr ⟨v, hv, e'⟩)
    exact ⟨s', e1, e2, e3, by rw [e4, putSeg_rev], by rw [e5, putSeg_next]⟩

/-- All mappings of a cage go. -/
theorem Inv.unmap {s : Sys} (hi : Inv s) {c : Nat} {l : List (Nat × Nat)} (hl : s.st.rev c = some l) :
    ∃ s', unmapAll c l s.st = some s' ∧ Core s' (s.atts.filter (fun a => a.cage != c)) none ∧ s'.rev = s.st.rev ∧
      s'.next = s.st.next := by
  have hp := hi.rev c l hl
  have hsplit : s.atts.Perm (l.map (fun u => (⟨c, u.1, u.2⟩ : Att)) ++ s.atts.filter (fun a => a.cage != c)) := by
    refine (List.filter_append_perm (fun a : Att => a.cage == c) s.atts).symm.trans ?_
    refine (hp.symm.append_right _).trans ?_
    have : (fun a : Att => !(a.cage == c)) = (fun a : Att => a.cage != c) := by funext a; rfl
    rw [this]
  have hcore := hi.core.perm hsplit
  have hcore' : Core s.st (l.map (fun u => (⟨c, u.1, u.2⟩ : Att)) ++ s.atts.filter (fun a => a.cage != c)) (some c) :=
    ⟨hcore.nattch, fun id g e d hd => hcore.att id g e d (by simp), hcore.rm, hcore.live, hcore.key, hcore.bound⟩
  obtain ⟨s', e1, e2, e3, e4, e5⟩ := unmapAll_spec c l s.st _ hcore' (by
    intro id g hg
    have := hi.core.att id g hg c (by simp)
    by_cases h0 : ofCage s.atts c id = 0
    · rw [h0] at this; exact .inl this
    · obtain ⟨a, ha, h1, h2⟩ := ofCage_pos.1 (Nat.pos_of_ne_zero h0)
      have : a ∈ l.map (fun u => (⟨c, u.1, u.2⟩ : Att)) := hp.mem_iff.2 (List.mem_filter.2 ⟨ha, by simp [h1]⟩)
      obtain ⟨u, hu, e⟩ := List.mem_map.1 this
      exact .inr ⟨u, hu, by rw [← h2, ← e]⟩)
  refine ⟨s', e1, ⟨e2.nattch, ?_, e2.rm, e2.live, e2.key, e2.bound⟩, e4, e5⟩
  intro id g hg d _
  by_cases e : d = c
  · subst e
    rw [e3 id g hg]
    have : ofCage (s.atts.filter (fun a => a.cage != d)) d id = 0 := by
      rcases Nat.eq_zero_or_pos (ofCage (s.atts.filter (fun a => a.cage != d)) d id) with h | h
      · exact h
      · obtain ⟨a, ha, h1, -⟩ := ofCage_pos.1 h
        have := (List.mem_filter.1 ha).2
        simp [h1] at this
    rw [this]; rfl
  · exact e2.att id g hg d (fun h => e (Option.some.inj h).symm)

/-! ### The loop of fork -/

theorem forkAll_spec (c ch : Nat) (hne : ch ≠ c) (L0 : List (Nat × Nat)) (A0 : List Att) : ∀ (l done : List (Nat × Nat)) (s : State),
    L0 = done ++ l →
    Core s (done.map (fun u => (⟨ch, u.1, u.2⟩ : Att)) ++ A0) (some ch) →
    (∀ a ∈ A0, a.cage ≠ ch) →
    (∀ u ∈ L0, 0 < ofCage A0 c u.2) →
    (∀ id g, s.segs id = some g → g.att ch = if (∃ u ∈ done, u.2 = id) then asEntry (ofCage A0 c id) else none) →
    ∃ s', forkAll c ch l s = some s' ∧ Core s' (L0.map (fun u => (⟨ch, u.1, u.2⟩ : Att)) ++ A0) (some ch) ∧
      (∀ id g, s'.segs id = some g → g.att ch = if (∃ u ∈ L0, u.2 = id) then asEntry (ofCage A0 c id) else none) ∧
      s'.rev = s.rev ∧ s'.next = s.next := by
  intro l
  induction l with
  | nil =>
    intro done s e h _ _ h2
    have : L0 = done := by simpa using e
    subst this
    exact ⟨s, rfl, h, h2, rfl, rfl⟩
  | cons u us ih =>
    intro done s e h hA hpos h2
    have hu : u ∈ L0 := by rw [e]; simp
    obtain ⟨a, ha, ha1, ha2⟩ := ofCage_pos.1 (hpos u hu)
    have hl : s.segs u.2 ≠ none := by rw [← ha2]; exact h.live a (by simp [ha])
    obtain ⟨g, hg⟩ := Option.ne_none_iff_exists'.1 hl
    have hoc : ∀ (d : List (Nat × Nat)) i, ofCage (d.map (fun u => (⟨ch, u.1, u.2⟩ : Att)) ++ A0) c i = ofCage A0 c i := by
      intro d i
      rw [ofCage_append]
      have : ofCage (d.map (fun u => (⟨ch, u.1, u.2⟩ : Att))) c i = 0 := by
        rcases Nat.eq_zero_or_pos (ofCage (d.map (fun u => (⟨ch, u.1, u.2⟩ : Att))) c i) with h | h
        · exact h
        · obtain ⟨b, hb, h1, -⟩ := ofCage_pos.1 h
          obtain ⟨v, -, rfl⟩ := List.mem_map.1 hb
          exact absurd h1 hne
      omega
    have hatt : g.att c = some (ofCage A0 c u.2) := by
      rw [h.att u.2 g hg c (by simpa using hne), hoc, asEntry, if_neg (Nat.pos_iff_ne_zero.1 (hpos u hu))]
    simp only [forkAll, hg, hatt]
    have hn := h.nattch u.2 g hg
    have hput : ({ s with segs := upd s.segs u.2 (some { g with nattch := g.nattch + 1, att := upd g.att ch (some (ofCage A0 c u.2)) }) } : State)
        = s.putSeg u.2 { g with nattch := g.nattch + 1, att := upd g.att ch (some (ofCage A0 c u.2)) } := by
      unfold State.putSeg
      rw [if_neg (by rintro ⟨-, e⟩; simp at e)]
    rw [hput]
    have hcore : Core (s.putSeg u.2 { g with nattch := g.nattch + 1, att := upd g.att ch (some (ofCage A0 c u.2)) })
        ((done ++ [u]).map (fun u => (⟨ch, u.1, u.2⟩ : Att)) ++ A0) (some ch) := by
      refine h.put (g := g) hg rfl ?_ ?_ ?_ ?_ ?_
      · intro i hi
        simp only [List.map_append, List.map_cons, List.map_nil, total_append, total_cons]
        rw [if_neg (Ne.symm hi)]; simp [total]
      · simp only [List.map_append, List.map_cons, List.map_nil, total_append, total_cons, if_true]
        rw [total_append] at hn
        rw [hn]; simp only [total, List.countP_nil]; omega
      · intro i d hi hd
        refine ⟨hd, ?_⟩
        simp only [List.map_append, List.map_cons, List.map_nil, ofCage_append, ofCage_cons]
        rw [if_neg (fun e => hi e.2.symm)]; simp [ofCage]
      · intro d hd
        have hdc : d ≠ ch := fun e => hd (by rw [e])
        simp only [upd_ne _ _ hdc]
        rw [h.att u.2 g hg d hd]
        simp only [List.map_append, List.map_cons, List.map_nil, ofCage_append, ofCage_cons]
        rw [if_neg (fun e => hdc e.1.symm)]; simp [ofCage]
      · intro b hb
        simp only [List.map_append, List.map_cons, List.map_nil, List.mem_append, List.mem_cons, List.not_mem_nil, or_false] at hb
        rcases hb with (hb | rfl) | hb
        · exact .inl (by simp only [List.mem_append]; exact .inl hb)
        · exact .inr rfl
        · exact .inl (by simp only [List.mem_append]; exact .inr hb)
    obtain ⟨s', e1, e2, e3, e4, e5⟩ := ih (done ++ [u]) _ (by rw [e]; simp) hcore hA hpos (by
      intro id x hx
      by_cases ei : id = u.2
      · subst ei
        have := putSeg_same hx
        subst this
        simp only [upd_same]
        rw [if_pos ⟨u, by simp, rfl⟩, asEntry, if_neg (Nat.pos_iff_ne_zero.1 (hpos u hu))]
      · rw [putSeg_ne ei] at hx
        rw [h2 id x hx]
        have : (∃ v ∈ done ++ [u], v.2 = id) ↔ ∃ v ∈ done, v.2 = id := by
          constructor
          · rintro ⟨v, hv, e'⟩
            rcases List.mem_append.1 hv with hv | hv
            · exact ⟨v, hv, e'⟩
            · simp only [List.mem_singleton] at hv; exact absurd (by rw [← e', hv]) ei
          · rintro ⟨v, hv, e'⟩; exact ⟨v, by simp [hv], e'⟩
        simp only [this])
    exact ⟨s', e1, e2, e3, by rw [e4, putSeg_rev], by rw [e5, putSeg_next]⟩

/-! ### Single calls -/

theorem findAddr_spec {addr i id : Nat} {l : List (Nat × Nat)} (h : findAddr addr l = some (i, id)) :
    ∃ xs ys, l = xs ++ (addr, id) :: ys ∧ i = xs.length := by
  induction l generalizing i with
  | nil => cases h
  | cons u us ih =>
    simp only [findAddr] at h
    split at h
    · rename_i e
      simp only [Option.some.injEq, Prod.mk.injEq] at h
      exact ⟨[], us, by rw [← e, ← h.2]; rfl, h.1.symm⟩
    · cases hf : findAddr addr us with
      | none => rw [hf] at h; cases h
      | some p =>
        obtain ⟨j, d⟩ := p
        rw [hf] at h
        simp only [Option.map_some, Option.some.injEq, Prod.mk.injEq] at h
        obtain ⟨xs, ys, h1, h2⟩ := ih (i := j) (by rw [hf, h.2])
        exact ⟨u :: xs, ys, by rw [h1]; rfl, by rw [← h.1, h2]; rfl⟩

theorem findAddr_none {addr : Nat} {l : List (Nat × Nat)} (h : findAddr addr l = none) : ∀ u ∈ l, u.1 ≠ addr := by
  induction l with
  | nil => intro u hu; cases hu
  | cons v vs ih =>
    simp only [findAddr] at h
    split at h
    · cases h
    · rename_i hne
      intro u hu
      rcases List.mem_cons.1 hu with rfl | hu
      · exact hne
      · cases hf : findAddr addr vs with
        | none => exact ih hf u hu
        | some p => rw [hf] at h; cases h

theorem swapRemove_perm (xs : List (Nat × Nat)) (x : Nat × Nat) (ys : List (Nat × Nat)) :
    (swapRemove (xs ++ x :: ys) xs.length).Perm (xs ++ ys) := by
  rcases List.eq_nil_or_concat ys with rfl | ⟨zs, z, rfl⟩
  · simp [swapRemove]
  · rw [List.concat_eq_append]
    have h1 : (xs ++ x :: (zs ++ [z])).getLast? = some z := by
      rw [show xs ++ x :: (zs ++ [z]) = (xs ++ x :: zs) ++ [z] by simp, List.getLast?_concat]
    have h2 : List.set (xs ++ x :: (zs ++ [z])) (List.length xs) z = (xs ++ z :: zs) ++ [z] := by
      have := List.set_append_right (s := xs) (t := x :: (zs ++ [z])) xs.length z (Nat.le_refl _)
      exact this.trans (by simp)
    simp only [swapRemove, h1]
    rw [h2, List.dropLast_concat]
    exact List.Perm.append_left xs (List.perm_append_comm (l₁ := [z]) (l₂ := zs))

theorem Inv.get {s : Sys} (hi : Inv s) {k : Int} {sz : Nat} {f : BitVec 32} :
    Inv { st := (shmget s.st k sz f).1, atts := s.atts } := by
  unfold shmget
  repeat' split
  all_goals try exact hi
  rename_i hk _ _ _
  have hz : total s.atts s.st.next = 0 := by
    rcases Nat.eq_zero_or_pos (total s.atts s.st.next) with h | h
    · exact h
    · obtain ⟨a, ha, e⟩ := total_pos.1 h
      have := hi.core.bound _ (hi.core.live a ha)
      omega
  have hzc : ∀ c, ofCage s.atts c s.st.next = 0 := by
    intro c
    rcases Nat.eq_zero_or_pos (ofCage s.atts c s.st.next) with h | h
    · exact h
    · obtain ⟨a, ha, -, e⟩ := ofCage_pos.1 h
      have := hi.core.bound _ (hi.core.live a ha)
      omega
  have hlt : ∀ i, s.st.segs i ≠ none → i ≠ s.st.next := fun i h => Nat.ne_of_lt (hi.core.bound i h)
  refine ⟨⟨?_, ?_, ?_, ?_, ?_, ?_⟩, hi.rev, hi.gone⟩
  · intro i g hg
    simp only [upd_apply] at hg
    split at hg
    · rename_i e; subst e; cases hg; exact hz.symm
    · exact hi.core.nattch i g hg
  · intro i g hg c hc
    simp only [upd_apply] at hg
    split at hg
    · rename_i e; subst e; cases hg; rw [hzc]; rfl
    · exact hi.core.att i g hg c hc
  · intro i g hg hr
    simp only [upd_apply] at hg
    split at hg
    · cases hg; cases hr
    · exact hi.core.rm i g hg hr
  · intro a ha
    have := hi.core.live a ha
    simp only [upd_ne _ _ (hlt _ this)]; exact this
  · intro k' i
    simp only [updK_apply, upd_apply]
    by_cases ek : k' = k
    · subst ek
      rw [if_pos rfl]
      constructor
      · intro e
        have := Option.some.inj e
        exact ⟨_, by rw [if_pos this.symm], rfl⟩
      · rintro ⟨g, hg, e⟩
        split at hg
        · rename_i e'; rw [e']
        · have := (hi.core.key k' i).2 ⟨g, hg, e⟩
          simp_all
    · rw [if_neg ek, hi.core.key]
      constructor
      · rintro ⟨g, hg, e⟩
        exact ⟨g, by rw [if_neg (hlt i (by rw [hg]; simp))]; exact hg, e⟩
      · rintro ⟨g, hg, e⟩
        split at hg
        · cases hg; exact absurd e.symm ek
        · exact ⟨g, hg, e⟩
  · intro i h
    simp only [upd_apply] at h
    split at h
    · simp only; omega
    · have := hi.core.bound i h
      simp only; omega

theorem Inv.rmid {s : Sys} (hi : Inv s) {id : Nat} : Inv { st := (Shm.rmid s.st id).1, atts := s.atts } := by
  unfold Shm.rmid
  split
  · exact hi
  · rename_i g hg
    refine ⟨hi.core.put (g := g) hg rfl (fun _ _ => rfl) (hi.core.nattch id g hg) (fun _ _ _ h => ⟨h, rfl⟩)
      (fun c hc => hi.core.att id g hg c hc) (fun a ha => .inl ha), ?_, ?_⟩
    · simp only [putSeg_rev]; exact hi.rev
    · simp only [putSeg_rev]; exact hi.gone

theorem asEntry_succ (n : Nat) : (match asEntry n with | some m => m + 1 | none => 1) = n + 1 := by
  unfold asEntry; split
  · rename_i h; split at h
    · cases h
    · cases h; rfl
  · rename_i h; split at h
    · omega
    · cases h

/-- A segment with other counts. -/
def Seg.with (g : Seg) (n : Nat) (f : Nat → Option Nat) : Seg := { g with nattch := n, att := f }

theorem Inv.attach {s : Sys} (hi : Inv s) {c : Nat} {rv : List (Nat × Nat)} (hrv : s.st.rev c = some rv) {id addr : Nat} {g : Seg}
    (hg : s.st.segs id = some g) :
    Inv { st := { s.st with rev := upd s.st.rev c (some (rv ++ [(addr, id)])), segs := upd s.st.segs id (some (g.attach c)) },
          atts := ⟨c, addr, id⟩ :: s.atts } := by
  have hput : ∀ r, ({ s.st with rev := r, segs := upd s.st.segs id (some (g.attach c)) } : State)
      = ({ s.st with rev := r } : State).putSeg id (g.attach c) := by
    intro r
    unfold State.putSeg
    rw [if_neg (by rintro ⟨-, e⟩; simp [Seg.attach] at e)]
  rw [hput]
  refine ⟨?_, ?_, ?_⟩
  · refine (hi.core.rev_irrel _).put (g := g) hg rfl ?_ ?_ ?_ ?_ ?_
    · intro i hne; rw [total_cons, if_neg (Ne.symm hne)]; rfl
    · rw [total_cons, if_pos rfl, ← hi.core.nattch id g hg]; rfl
    · intro i d hne hd; refine ⟨hd, ?_⟩
      rw [ofCage_cons, if_neg (fun e => hne e.2.symm)]; rfl
    · intro d _
      have h1 := hi.core.att id g hg
      simp only [Seg.attach, upd_apply, ofCage_cons]
      split
      · rename_i e
        subst e
        rw [h1 d (by simp), if_pos ⟨rfl, trivial⟩]
        have := asEntry_succ (ofCage s.atts d id)
        refine (congrArg some this).trans ?_
        rw [asEntry, if_neg (by omega)]
      · rename_i e
        rw [if_neg (fun h => e h.1.symm), h1 d (by simp)]; rfl
    · intro a ha
      rcases List.mem_cons.1 ha with rfl | ha
      · exact .inr rfl
      · exact .inl ha
  · intro d l hl
    rw [putSeg_rev] at hl
    simp only [upd_apply] at hl
    split at hl
    · rename_i e
      subst e
      cases hl
      rw [List.filter_cons_of_pos (by simp)]
      rw [List.map_append]
      exact List.perm_append_comm.trans (List.Perm.cons _ (hi.rev d rv hrv))
    · rename_i e
      rw [List.filter_cons_of_neg (by simpa using Ne.symm e)]
      exact hi.rev d l hl
  · intro d hd a ha
    rw [putSeg_rev] at hd
    simp only [upd_apply] at hd
    split at hd
    · cases hd
    · rename_i e
      rcases List.mem_cons.1 ha with rfl | ha
      · exact Ne.symm e
      · exact hi.gone d hd a ha

/-- Detaching in an invariant state: never a panic. -/
theorem Inv.detach {s : Sys} (hi : Inv s) {c : Nat} {rv : List (Nat × Nat)} (hrv : s.st.rev c = some rv) {addr i id : Nat}
    (hf : findAddr addr rv = some (i, id)) :
    ⟨c, addr, id⟩ ∈ s.atts ∧ ∃ g g', s.st.segs id = some g ∧ g.detach c = some g' ∧ g'.rmid = g.rmid ∧
      Inv { st := ({ s.st with rev := upd s.st.rev c (some (swapRemove rv i)) } : State).putSeg id g',
            atts := s.atts.erase ⟨c, addr, id⟩ } := by
  obtain ⟨xs, ys, h1, h2⟩ := findAddr_spec hf
  have hp := hi.rev c rv hrv
  have hm : (⟨c, addr, id⟩ : Att) ∈ s.atts := by
    have : (⟨c, addr, id⟩ : Att) ∈ s.atts.filter (fun a => a.cage == c) :=
      hp.mem_iff.1 (List.mem_map.2 ⟨(addr, id), by rw [h1]; simp, rfl⟩)
    exact (List.mem_filter.1 this).1
  refine ⟨hm, ?_⟩
  obtain ⟨g, hg⟩ := Option.ne_none_iff_exists'.1 (hi.core.live _ hm)
  simp only at hg
  have hpe := List.perm_cons_erase hm
  have ht : ∀ j, total s.atts j = total (s.atts.erase ⟨c, addr, id⟩) j + if id = j then 1 else 0 := by
    intro j; rw [total, hpe.countP_eq, ← total, total_cons]
  have ho : ∀ d j, ofCage s.atts d j = ofCage (s.atts.erase ⟨c, addr, id⟩) d j + if c = d ∧ id = j then 1 else 0 := by
    intro d j; rw [ofCage, hpe.countP_eq, ← ofCage, ofCage_cons]
  have hn := hi.core.nattch id g hg
  have ha := hi.core.att id g hg c (by simp)
  have hoc := ho c id
  have htc := ht id
  rw [if_pos rfl] at htc
  rw [if_pos ⟨rfl, rfl⟩] at hoc
  have hd : g.detach c = some (g.with (g.nattch - 1)
      (upd g.att c (asEntry (ofCage (s.atts.erase ⟨c, addr, id⟩) c id)))) := by
    simp only [Seg.detach, Seg.with]
    rw [if_neg (by omega), ha, hoc]
    simp only [asEntry]
    rw [if_neg (by omega)]
  refine ⟨g, _, hg, hd, rfl, ?_⟩
  refine ⟨?_, ?_, ?_⟩
  · refine (hi.core.rev_irrel _).put (g := g) hg rfl ?_ ?_ ?_ ?_ ?_
    · intro j hne; have := ht j; rw [if_neg (Ne.symm hne)] at this; exact this.symm
    · simp only [Seg.with]; omega
    · intro j d hne hd; refine ⟨hd, ?_⟩
      have := ho d j; rw [if_neg (fun e => hne e.2.symm)] at this; exact this.symm
    · intro d _
      simp only [Seg.with, upd_apply]
      split
      · rename_i e; rw [e]
      · rename_i e
        rw [hi.core.att id g hg d (by simp)]
        have := ho d id
        rw [if_neg (fun h => e h.1.symm)] at this
        rw [this]; rfl
    · intro a ha; exact .inl (List.mem_of_mem_erase ha)
  · intro d l hl
    rw [putSeg_rev] at hl
    simp only [upd_apply] at hl
    split at hl
    · rename_i e
      subst e
      cases hl
      rw [h2, h1]
      have h3 := (swapRemove_perm xs (addr, id) ys).map (fun u => (⟨d, u.1, u.2⟩ : Att))
      refine h3.trans ?_
      have h4 : ((⟨d, addr, id⟩ : Att) :: (xs ++ ys).map (fun u => (⟨d, u.1, u.2⟩ : Att))).Perm
          (⟨d, addr, id⟩ :: (s.atts.erase ⟨d, addr, id⟩).filter (fun a => a.cage == d)) := by
        have h5 : (rv.map (fun u => (⟨d, u.1, u.2⟩ : Att))).Perm
            (⟨d, addr, id⟩ :: (xs ++ ys).map (fun u => (⟨d, u.1, u.2⟩ : Att))) := by
          rw [h1]; simp only [List.map_append, List.map_cons]; exact List.perm_middle
        refine h5.symm.trans (hp.trans ?_)
        have := hpe.filter (fun a => a.cage == d)
        rw [List.filter_cons_of_pos (by simp)] at this
        exact this
      exact h4.cons_inv
    · rename_i e
      have h6 := hpe.filter (fun a => a.cage == d)
      rw [List.filter_cons_of_neg (by simpa using Ne.symm e)] at h6
      exact (hi.rev d l hl).trans h6
  · intro d hd' a ha
    rw [putSeg_rev] at hd'
    simp only [upd_apply] at hd'
    split at hd'
    · cases hd'
    · exact hi.gone d hd' a (List.mem_of_mem_erase ha)

/-- Fork in an invariant state: never a panic. -/
theorem Inv.fork {s : Sys} (hi : Inv s) {c ch : Nat} {rv : List (Nat × Nat)} (hrv : s.st.rev c = some rv)
    (hch : s.st.rev ch = none) :
    ∃ s', forkAll c ch rv s.st = some s' ∧ s'.next = s.st.next ∧
      Inv { st := { s' with rev := upd s'.rev ch (some rv) },
            atts := (s.atts.filter (fun a => a.cage == c)).map (fun a => { a with cage := ch }) ++ s.atts } := by
  have hne : ch ≠ c := by rintro rfl; rw [hch] at hrv; cases hrv
  have hp := hi.rev c rv hrv
  have hgone := hi.gone ch hch
  have hoz : ∀ id, ofCage s.atts ch id = 0 := by
    intro id
    rcases Nat.eq_zero_or_pos (ofCage s.atts ch id) with h | h
    · exact h
    · obtain ⟨a, ha, e, -⟩ := ofCage_pos.1 h
      exact absurd e (hgone a ha)
  have hex : ∀ u ∈ rv, 0 < ofCage s.atts c u.2 := by
    intro u hu
    have : (⟨c, u.1, u.2⟩ : Att) ∈ s.atts.filter (fun a => a.cage == c) := hp.mem_iff.1 (List.mem_map.2 ⟨u, hu, rfl⟩)
    exact ofCage_pos.2 ⟨_, (List.mem_filter.1 this).1, rfl, rfl⟩
  obtain ⟨s', e1, e2, e3, e4, e5⟩ := forkAll_spec c ch hne rv s.atts rv [] s.st rfl
    ⟨hi.core.nattch, fun id g e d hd => hi.core.att id g e d (by simp), hi.core.rm, hi.core.live, hi.core.key, hi.core.bound⟩
    hgone hex (by
      intro id g hg
      rw [hi.core.att id g hg ch (by simp), hoz, if_neg (by simp)]; rfl)
  refine ⟨s', e1, e5, ?_⟩
  -- the copies
  have hcopy : (rv.map (fun u => (⟨ch, u.1, u.2⟩ : Att))).Perm
      ((s.atts.filter (fun a => a.cage == c)).map (fun a => { a with cage := ch })) := by
    have := hp.map (fun a : Att => ({ a with cage := ch } : Att))
    rw [List.map_map] at this
    exact this
  have hcnt : ∀ id, ofCage (rv.map (fun u => (⟨ch, u.1, u.2⟩ : Att))) ch id = ofCage s.atts c id := by
    intro id
    have h1 : ofCage (rv.map (fun u => (⟨ch, u.1, u.2⟩ : Att))) ch id = rv.countP (fun u => u.2 == id) := by
      simp only [ofCage, List.countP_map]
      congr 1; funext u; simp [Function.comp]
    have h2 : (s.atts.filter (fun a => a.cage == c)).countP (fun a => a.id == id) = rv.countP (fun u => u.2 == id) := by
      rw [← hp.countP_eq, List.countP_map]
      congr 1
    rw [h1, ← h2, List.countP_filter, ofCage]
    congr 1; funext a; rw [Bool.and_comm]
  have hcore := (e2.perm (hcopy.append_right s.atts))
  refine ⟨⟨hcore.nattch, ?_, hcore.rm, hcore.live, hcore.key, hcore.bound⟩, ?_, ?_⟩
  · intro id g hg d _
    by_cases e : d = ch
    · subst e
      have h1 : ofCage ((s.atts.filter (fun a => a.cage == c)).map (fun a => { a with cage := d }) ++ s.atts) d id
          = ofCage s.atts c id := by
        rw [ofCage_append, hoz, Nat.add_zero, ofCage, ← hcopy.countP_eq, ← ofCage, hcnt]
      simp only [h1]
      rw [e3 id g hg]
      split
      · rfl
      · rename_i hno
        have : ofCage s.atts c id = 0 := by
          rcases Nat.eq_zero_or_pos (ofCage s.atts c id) with h | h
          · exact h
          · obtain ⟨a, ha, e1, e2⟩ := ofCage_pos.1 h
            have : a ∈ rv.map (fun u => (⟨c, u.1, u.2⟩ : Att)) := hp.mem_iff.2 (List.mem_filter.2 ⟨ha, by simp [e1]⟩)
            obtain ⟨u, hu, e⟩ := List.mem_map.1 this
            exact absurd ⟨u, hu, by rw [← e2, ← e]⟩ hno
        rw [this]; rfl
    · exact hcore.att id g hg d (fun h => e (Option.some.inj h).symm)
  · intro d l hl
    simp only [upd_apply, e4] at hl
    split at hl
    · rename_i e
      subst e
      cases hl
      rw [List.filter_append]
      have h1 : s.atts.filter (fun a => a.cage == d) = [] := by
        rw [List.filter_eq_nil_iff]
        intro a ha; simpa using hgone a ha
      have h2 : ((s.atts.filter (fun a => a.cage == c)).map (fun a => ({ a with cage := d } : Att))).filter (fun a => a.cage == d)
          = (s.atts.filter (fun a => a.cage == c)).map (fun a => { a with cage := d }) := by
        rw [List.filter_eq_self]
        intro a ha
        obtain ⟨b, -, rfl⟩ := List.mem_map.1 ha
        simp
      rw [h1, h2, List.append_nil]
      exact hcopy
    · rename_i e
      rw [List.filter_append]
      have h2 : ((s.atts.filter (fun a => a.cage == c)).map (fun a => ({ a with cage := ch } : Att))).filter (fun a => a.cage == d)
          = [] := by
        rw [List.filter_eq_nil_iff]
        intro a ha
        obtain ⟨b, -, rfl⟩ := List.mem_map.1 ha
        simpa using Ne.symm e
      rw [h2, List.nil_append]
      exact hi.rev d l hl
  · intro d hd a ha
    simp only [upd_apply, e4] at hd
    split at hd
    · cases hd
    · rename_i e
      rcases List.mem_append.1 ha with ha | ha
      · obtain ⟨b, -, rfl⟩ := List.mem_map.1 ha
        exact Ne.symm e
      · exact hi.gone d hd a ha

theorem filter_filter_ne (A : List Att) {c d : Nat} (h : d ≠ c) :
    (A.filter (fun a => a.cage != c)).filter (fun a => a.cage == d) = A.filter (fun a => a.cage == d) := by
  rw [List.filter_filter]
  apply List.filter_congr
  intro a _
  by_cases e : a.cage = d
  · simp [e, h]
  · simp [e]

/-- Exit in an invariant state: never a panic. -/
theorem Inv.exit {s : Sys} (hi : Inv s) {c : Nat} {rv : List (Nat × Nat)} (hrv : s.st.rev c = some rv) :
    ∃ s', unmapAll c rv s.st = some s' ∧ s'.next = s.st.next ∧ s'.rev = s.st.rev ∧
      Inv { st := { s' with rev := upd s'.rev c none }, atts := s.atts.filter (fun a => a.cage != c) } := by
  obtain ⟨s', e1, e2, e3, e4⟩ := hi.unmap hrv
  refine ⟨s', e1, e4, e3, e2.rev_irrel _, ?_, ?_⟩
  · intro d l hl
    simp only [upd_apply, e3] at hl
    split at hl
    · cases hl
    · rename_i e
      rw [filter_filter_ne _ e]
      exact hi.rev d l hl
  · intro d hd a ha
    have := List.mem_filter.1 ha
    simp only [upd_apply, e3] at hd
    split at hd
    · rename_i e; subst e; simpa using this.2
    · exact hi.gone d hd a this.1

/-- A cage without attachments appears. -/
theorem Inv.fresh {s : Sys} (hi : Inv s) {ch : Nat} (hch : s.st.rev ch = none) :
    Inv { st := { s.st with rev := upd s.st.rev ch (some []) }, atts := s.atts } := by
  refine ⟨hi.core.rev_irrel _, ?_, ?_⟩
  · intro d l hl
    simp only [upd_apply] at hl
    split at hl
    · rename_i e
      subst e
      cases hl
      have h1 : s.atts.filter (fun a => a.cage == d) = [] := by
        rw [List.filter_eq_nil_iff]
        intro a ha; simpa using hi.gone d hch a ha
      rw [h1]; exact List.Perm.nil
    · exact hi.rev d l hl
  · intro d hd a ha
    simp only [upd_apply] at hd
    split at hd
    · cases hd
    · exact hi.gone d hd a ha

theorem Inv.init : Inv .init := by
  refine ⟨⟨?_, ?_, ?_, ?_, ?_, ?_⟩, ?_, ?_⟩
  all_goals simp [Sys.init, Shm.init]

theorem Inv.step {s : Sys} (hi : Inv s) {c : Nat} {op : Op} (hc : Clean s.st c op) : Inv (s.step c op) := by
  unfold Sys.step Shm.step
  cases hrv : s.st.rev c with
  | none => cases op <;> exact hi
  | some rv =>
    cases op with
    | get k sz f =>
      have : attAfter s.atts c (.get k sz f) (shmget s.st k sz f).2 = s.atts := by simp [attAfter]
      simp only [this]
      exact hi.get
    | «at» id addr host =>
      cases hc
      simp only [shmat]
      cases hg : s.st.segs id with
      | none => exact hi
      | some g => exact hi.attach hrv hg
    | dt addr =>
      simp only [shmdt]
      cases hf : findAddr addr rv with
      | none => exact hi
      | some p =>
        obtain ⟨i, id⟩ := p
        obtain ⟨hm, g, g', h1, h2, -, h3⟩ := hi.detach hrv hf
        simp only [h1, h2, attAfter, Int.toNat_natCast]
        exact h3
    | rmid id =>
      have : attAfter s.atts c (.rmid id) (Shm.rmid s.st id).2 = s.atts := by simp [attAfter]
      simp only [this]
      exact hi.rmid
    | stat id => exact hi
    | ctl id => exact hi
    | fork ch =>
      obtain ⟨s', h1, -, h2⟩ := hi.fork hrv hc
      simp only [h1]
      split
      · exact hi
      · exact h2
    | exec ch =>
      obtain ⟨s', h1, -, h3, h2⟩ := hi.exit hrv
      simp only [h1]
      split
      · exact hi
      · refine h2.fresh (ch := ch) ?_
        simp only [upd_apply, h3]
        split
        · rfl
        · rcases hc with e | e
          · contradiction
          · exact e
    | exit =>
      obtain ⟨s', h1, -, -, h2⟩ := hi.exit hrv
      simp only [h1]
      exact h2

theorem Reach.inv {s : Sys} (h : Reach s) : Inv s := by
  induction h with
  | init => exact .init
  | step _ hc ih => exact ih.step hc

/-! ### How segments evolve -/

/-- Segments that are there stay what they are, except for going away when marked; no new ones appear.  `m` says which are
being marked. -/
structure Evo (m : Nat → Bool) (s s' : State) : Prop where
  old : ∀ id g, s.segs id = some g → (s'.segs id = none ∧ (g.rmid || m id) = true) ∨
    ∃ g', s'.segs id = some g' ∧ g'.rmid = (g.rmid || m id) ∧ g'.key = g.key ∧ g'.size = g.size
  free : ∀ id, s.segs id = none → s'.segs id = none
  next : s'.next = s.next

def noMark : Nat → Bool := fun _ => false

theorem Evo.refl (s : State) : Evo noMark s s :=
  ⟨fun id g h => .inr ⟨g, h, by simp [noMark], rfl, rfl⟩, fun _ h => h, rfl⟩

theorem Evo.trans {s s' s'' : State} (h : Evo noMark s s') (h' : Evo noMark s' s'') : Evo noMark s s'' := by
  refine ⟨fun id g hg => ?_, fun id hn => h'.free id (h.free id hn), h'.next.trans h.next⟩
  rcases h.old id g hg with ⟨e1, e2⟩ | ⟨g', e1, e2, e3, e4⟩
  · exact .inl ⟨h'.free id e1, e2⟩
  · rcases h'.old id g' e1 with ⟨f1, f2⟩ | ⟨g'', f1, f2, f3, f4⟩
    · exact .inl ⟨f1, by rw [e2] at f2; simpa [noMark] using f2⟩
    · exact .inr ⟨g'', f1, by rw [f2, e2]; simp [noMark], f3.trans e3, f4.trans e4⟩

theorem Evo.rev {m : Nat → Bool} {s s' : State} (h : Evo m s s') (r r' : Nat → Option (List (Nat × Nat))) :
    Evo m { s with rev := r } { s' with rev := r' } := ⟨h.old, h.free, h.next⟩

theorem Evo.putSeg {m : Nat → Bool} {s : State} {id : Nat} {g g' : Seg} (hg : s.segs id = some g)
    (hm : ∀ i, i ≠ id → m i = false)
    (h1 : g'.rmid = (g.rmid || m id)) (h2 : g'.key = g.key) (h3 : g'.size = g.size) : Evo m s (s.putSeg id g') := by
  unfold State.putSeg
  split
  · rename_i hz
    refine ⟨fun i x hx => ?_, fun i hx => ?_, rfl⟩
    · by_cases e : i = id
      · subst e
        rw [hg] at hx; cases hx
        exact .inl ⟨by simp, by rw [← h1]; exact hz.1⟩
      · exact .inr ⟨x, by simp [upd_ne _ _ e, hx], by simp [hm i e], rfl, rfl⟩
    · by_cases e : i = id
      · subst e; simp
      · simp [upd_ne _ _ e, hx]
  · refine ⟨fun i x hx => ?_, fun i hx => ?_, rfl⟩
    · by_cases e : i = id
      · subst e
        rw [hg] at hx; cases hx
        exact .inr ⟨g', by simp, h1, h2, h3⟩
      · exact .inr ⟨x, by simp [upd_ne _ _ e, hx], by simp [hm i e], rfl, rfl⟩
    · by_cases e : i = id
      · subst e; rw [hg] at hx; cases hx
      · simp [upd_ne _ _ e, hx]

theorem Evo.set {s : State} {id : Nat} {g g' : Seg} (hg : s.segs id = some g) (h1 : g'.rmid = g.rmid) (h2 : g'.key = g.key)
    (h3 : g'.size = g.size) : Evo noMark s { s with segs := upd s.segs id (some g') } := by
  refine ⟨fun i x hx => ?_, fun i hx => ?_, rfl⟩
  · by_cases e : i = id
    · subst e
      rw [hg] at hx; cases hx
      exact .inr ⟨g', by simp, by simp [noMark, h1], h2, h3⟩
    · exact .inr ⟨x, by simp [upd_ne _ _ e, hx], by simp [noMark], rfl, rfl⟩
  · by_cases e : i = id
    · subst e; rw [hg] at hx; cases hx
    · simp [upd_ne _ _ e, hx]

theorem unmapAll_evo {c : Nat} {l : List (Nat × Nat)} {s s' : State} (h : unmapAll c l s = some s') : Evo noMark s s' := by
  induction l generalizing s with
  | nil => cases h; exact .refl _
  | cons u us ih =>
    simp only [unmapAll] at h
    split at h
    · cases h
    · rename_i s1 h1
      refine Evo.trans ?_ (ih h)
      simp only [unmapOne] at h1
      split at h1
      · cases h1
      · rename_i g hg
        split at h1
        · cases h1
        · cases h1
          exact Evo.putSeg hg (fun _ _ => rfl) (by simp [noMark]) rfl rfl

theorem forkAll_evo {c ch : Nat} {l : List (Nat × Nat)} {s s' : State} (h : forkAll c ch l s = some s') : Evo noMark s s' := by
  induction l generalizing s with
  | nil => cases h; exact .refl _
  | cons u us ih =>
    simp only [forkAll] at h
    split at h
    · cases h
    · rename_i g hg
      split at h
      · cases h
      · rename_i n _
        exact Evo.trans (Evo.set (g' := { g with nattch := g.nattch + 1, att := upd g.att ch (some n) }) hg rfl rfl rfl) (ih h)

theorem detach_same {g g' : Seg} {c : Nat} (h : g.detach c = some g') : g'.rmid = g.rmid ∧ g'.key = g.key ∧ g'.size = g.size := by
  simp only [Seg.detach] at h
  repeat' split at h
  all_goals first
    | cases h; done
    | (cases h; exact ⟨rfl, rfl, rfl⟩)

/-- The segment this call marks for removal. -/
def marks (op : Op) (id : Nat) : Bool := op == .rmid id

/-- Every call of an existing cage except the creation of a segment. -/
theorem step_evo (s : State) (c : Nat) (op : Op) (hc : s.rev c ≠ none) (hg : ∀ k sz f, op ≠ .get k sz f) :
    Evo (marks op) s (step s c op).1 := by
  have hm : (∀ id, op ≠ .rmid id) → marks op = noMark := by
    intro h; funext id; simp only [marks, noMark]; exact beq_eq_false_iff_ne.2 (h id)
  obtain ⟨rv, hrv⟩ := Option.ne_none_iff_exists'.1 hc
  unfold step
  rw [hrv]
  cases op with
  | get k sz f => exact absurd rfl (hg k sz f)
  | «at» id a h =>
    rw [hm (by intro id h; cases h)]
    simp only [shmat]
    split
    · exact .refl s
    · rename_i g hg
      exact (Evo.set (s := s) (g' := g.attach c) hg rfl rfl rfl).rev s.rev _
  | dt a =>
    rw [hm (by intro id h; cases h)]
    simp only [shmdt]
    split
    · exact .refl s
    · split
      · exact .refl s
      · rename_i g hg
        split
        · exact .refl s
        · rename_i g' hd
          obtain ⟨h1, h2, h3⟩ := detach_same hd
          have : ∀ r, Evo noMark s (({ s with rev := r } : State).putSeg _ g') := fun r => by
            have := Evo.putSeg (s := { s with rev := r }) (m := noMark) hg
              (fun _ _ => rfl) (by simpa [noMark] using h1) h2 h3
            exact ⟨this.old, this.free, this.next⟩
          exact this _
  | rmid id =>
    simp only [rmid]
    split
    · rename_i hn
      refine ⟨fun i g h => .inr ⟨g, h, ?_, rfl, rfl⟩, fun i h => h, rfl⟩
      have : i ≠ id := by rintro rfl; rw [hn] at h; cases h
      have : marks (.rmid id) i = false := by simp [marks]; exact Ne.symm this
      simp [this]
    · rename_i g hg
      refine Evo.putSeg hg ?_ ?_ rfl rfl
      · intro i hi; simp [marks]; exact Ne.symm hi
      · simp [marks]
  | stat id => rw [hm (by intro id h; cases h)]; exact .refl s
  | ctl id => rw [hm (by intro id h; cases h)]; exact .refl s
  | fork ch =>
    rw [hm (by intro id h; cases h)]
    simp only
    split
    · exact .refl s
    · rename_i s' h1
      split
      · exact .refl s
      · have := forkAll_evo h1
        exact ⟨this.old, this.free, this.next⟩
  | exec ch =>
    rw [hm (by intro id h; cases h)]
    simp only
    split
    · exact .refl s
    · rename_i s' h1
      split
      · exact .refl s
      · have := unmapAll_evo h1
        exact ⟨this.old, this.free, this.next⟩
  | exit =>
    rw [hm (by intro id h; cases h)]
    simp only
    split
    · exact .refl s
    · rename_i s' h1
      have := unmapAll_evo h1
      exact ⟨this.old, this.free, this.next⟩

/-- What `shmget` can do. -/
theorem shmget_cases (s : State) (k : Int) (sz : Nat) (f : BitVec 32) :
    ((shmget s k sz f).1 = s ∧ ∀ v, (shmget s k sz f).2 = .r (.ok v) → ∃ id : Nat, s.keys k = some id ∧ v = id ∧
        f &&& (ipcCreat ||| ipcExcl) ≠ ipcCreat ||| ipcExcl) ∨
      (s.keys k = none ∧ (shmget s k sz f).2 = .r (.ok s.next) ∧ (shmget s k sz f).1.next = s.next + 1 ∧
        (shmget s k sz f).1.keys = updK s.keys k (some s.next) ∧
        (∃ g, (shmget s k sz f).1.segs = upd s.segs s.next (some g) ∧ g.rmid = false ∧ g.key = k ∧ g.size = sz ∧ g.nattch = 0) ∧
        (shmget s k sz f).1.rev = s.rev) := by
  unfold shmget
  repeat' split
  · exact .inl ⟨rfl, fun v h => by cases h⟩
  · exact .inl ⟨rfl, fun v h => by cases h⟩
  · rename_i id hk hf
    refine .inl ⟨rfl, fun v h => ⟨id, hk, ?_, hf⟩⟩
    cases h; rfl
  · exact .inl ⟨rfl, fun v h => by cases h⟩
  · exact .inl ⟨rfl, fun v h => by cases h⟩
  · rename_i hk _ _
    exact .inr ⟨hk, rfl, rfl, rfl, ⟨_, rfl, rfl, rfl, rfl, rfl⟩, rfl⟩

theorem step_get {s : State} {c : Nat} {k : Int} {sz : Nat} {f : BitVec 32} (hc : s.rev c ≠ none) :
    step s c (.get k sz f) = shmget s k sz f := by
  obtain ⟨rv, hrv⟩ := Option.ne_none_iff_exists'.1 hc
  simp only [step, hrv]

theorem step_nocage {s : State} {c : Nat} {op : Op} (hc : s.rev c = none) : step s c op = (s, .r .panic) := by
  simp only [step, hc]

/-! ## C34: attach counts -/

/-- **C34, partial.**  In every state reached by clean calls, for every segment: `IPC_STAT` reports the number of its
attachments over all cages. -/
theorem nattch_partial {s : Sys} (h : Reach s) {c id : Nat} (hc : s.st.rev c ≠ none) (hid : s.st.segs id ≠ none) :
    ∃ key size mode, (step s.st c (.stat id)).2 = .stat key size mode (total s.atts id) := by
  obtain ⟨g, hg⟩ := Option.ne_none_iff_exists'.1 hid
  obtain ⟨rv, hrv⟩ := Option.ne_none_iff_exists'.1 hc
  refine ⟨g.key, g.size % 2 ^ 32, g.mode, ?_⟩
  simp only [step, hrv, stat, hg, ← h.inv.core.nattch id g hg]

/-- **C34, partial.**  The count a segment records for a cage is that cage's number of attachments (and there is no record
if there is no attachment). -/
theorem per_cage_partial {s : Sys} (h : Reach s) {c id : Nat} {g : Seg} (hg : s.st.segs id = some g) :
    g.att c = if ofCage s.atts c id = 0 then none else some (ofCage s.atts c id) :=
  h.inv.core.att id g hg c (by simp)

/-- **C34, partial.**  The cage's own table lists exactly its attachments. -/
theorem table_partial {s : Sys} (h : Reach s) {c : Nat} {l : List (Nat × Nat)} (hl : s.st.rev c = some l) :
    (l.map (fun u => (⟨c, u.1, u.2⟩ : Att))).Perm (s.atts.filter (fun a => a.cage == c)) := h.inv.rev c l hl

/-- **C34, partial.**  What is attached exists. -/
theorem attached_exists_partial {s : Sys} (h : Reach s) {a : Att} (ha : a ∈ s.atts) : s.st.segs a.id ≠ none :=
  h.inv.core.live a ha

/-- **C34, partial.**  `shmdt` succeeds exactly on the addresses at which the caller has an attachment, and gives its
identifier. -/
theorem shmdt_partial {s : Sys} (h : Reach s) {c addr : Nat} (hc : s.st.rev c ≠ none) :
    (∃ id : Nat, (step s.st c (.dt addr)).2 = .r (.ok id) ∧ ⟨c, addr, id⟩ ∈ s.atts) ∨
      (step s.st c (.dt addr) = (s.st, .r (.err .EINVAL)) ∧ ∀ id, ⟨c, addr, id⟩ ∉ s.atts) := by
  obtain ⟨rv, hrv⟩ := Option.ne_none_iff_exists'.1 hc
  simp only [step, hrv, shmdt]
  cases hf : findAddr addr rv with
  | none =>
    refine .inr ⟨rfl, fun id hm => ?_⟩
    have : (⟨c, addr, id⟩ : Att) ∈ rv.map (fun u => (⟨c, u.1, u.2⟩ : Att)) :=
      (h.inv.rev c rv hrv).mem_iff.2 (List.mem_filter.2 ⟨hm, by simp⟩)
    obtain ⟨u, hu, e⟩ := List.mem_map.1 this
    exact findAddr_none hf u hu (congrArg Att.addr e)
  | some p =>
    obtain ⟨i, id⟩ := p
    obtain ⟨hm, g, g', h1, h2, -, -⟩ := h.inv.detach hrv hf
    exact .inl ⟨id, by simp only [h1, h2], hm⟩

/-- **C34, partial.**  No clean call of an existing cage aborts the program, given a cage number in range. -/
theorem no_panic_partial {s : Sys} (h : Reach s) {c : Nat} {op : Op} (hc : s.st.rev c ≠ none) (hcl : Clean s.st c op)
    (hch : ∀ ch, op = .fork ch ∨ op = .exec ch → ch < maxCage) : (step s.st c op).2 ≠ .r .panic := by
  obtain ⟨rv, hrv⟩ := Option.ne_none_iff_exists'.1 hc
  simp only [step, hrv]
  cases op with
  | get k sz f => simp only [shmget]; repeat' split
                  all_goals (intro e; cases e)
  | «at» id a host => simp only [shmat]; split
                      · intro e; cases e
                      · cases hcl; intro e; cases e
  | dt addr =>
    simp only [shmdt]
    cases hf : findAddr addr rv with
    | none => intro e; cases e
    | some p =>
      obtain ⟨i, id⟩ := p
      obtain ⟨hm, g, g', h1, h2, -, -⟩ := h.inv.detach hrv hf
      simp only [h1, h2]; intro e; cases e
  | rmid id => simp only [rmid]; split <;> (intro e; cases e)
  | stat id => simp only [stat]; split <;> (intro e; cases e)
  | ctl id => intro e; cases e
  | fork ch =>
    obtain ⟨s', h1, -, -⟩ := h.inv.fork hrv hcl
    have := hch ch (.inl rfl)
    simp only [h1]
    rw [if_neg (by omega)]; intro e; cases e
  | exec ch =>
    obtain ⟨s', h1, -⟩ := h.inv.exit hrv
    have := hch ch (.inr rfl)
    simp only [h1]
    rw [if_neg (by omega)]; intro e; cases e
  | exit =>
    obtain ⟨s', h1, -⟩ := h.inv.exit hrv
    simp only [h1]; intro e; cases e

/-! ## C35: removal -/

/-- Marked by `IPC_RMID`. -/
def Marked (s : State) (id : Nat) : Prop := ∃ g, s.segs id = some g ∧ g.rmid = true

/-- **C35, partial.**  A clean call destroys a segment exactly if the segment is marked (already or by this call) and has no
attachment after the call. -/
theorem destroyed_iff_partial {s : Sys} (h : Reach s) {c id : Nat} {op : Op} (hc : s.st.rev c ≠ none) (hcl : Clean s.st c op)
    (hid : s.st.segs id ≠ none) :
    (s.step c op).st.segs id = none ↔ (Marked s.st id ∨ op = .rmid id) ∧ total (s.step c op).atts id = 0 := by
  have hi' := (h.step hcl).inv
  obtain ⟨g, hg⟩ := Option.ne_none_iff_exists'.1 hid
  have key : ∀ {m : Nat → Bool}, (∀ i, m i = true ↔ op = .rmid i) →
      ((s.step c op).st.segs id = none ∧ (g.rmid || m id) = true ∨
        ∃ g', (s.step c op).st.segs id = some g' ∧ g'.rmid = (g.rmid || m id) ∧ g'.key = g.key ∧ g'.size = g.size) →
      ((s.step c op).st.segs id = none ↔ (Marked s.st id ∨ op = .rmid id) ∧ total (s.step c op).atts id = 0) := by
    intro m hm hcase
    constructor
    · intro hn
      rcases hcase with ⟨-, e⟩ | ⟨g', e, -⟩
      · refine ⟨?_, ?_⟩
        · rcases Bool.or_eq_true _ _ ▸ e with e | e
          · exact .inl ⟨g, hg, e⟩
          · exact .inr ((hm id).1 e)
        · rcases Nat.eq_zero_or_pos (total (s.step c op).atts id) with h0 | h0
          · exact h0
          · obtain ⟨a, ha, e'⟩ := total_pos.1 h0
            exact absurd hn (e' ▸ hi'.core.live a ha)
      · rw [hn] at e; cases e
    · rintro ⟨hmk, h0⟩
      rcases hcase with ⟨e, -⟩ | ⟨g', e, e', -⟩
      · exact e
      · have : g'.rmid = true := by
          rw [e']
          rcases hmk with ⟨x, hx, hr⟩ | hr
          · rw [hg] at hx; cases hx; simp [hr]
          · simp [(hm id).2 hr]
        have := hi'.core.rm id g' e this
        omega
  by_cases hget : ∃ k sz f, op = .get k sz f
  · obtain ⟨k, sz, f, rfl⟩ := hget
    refine key (m := noMark) (by intro i; simp [noMark]) (.inr ?_)
    have hlt := h.inv.core.bound id hid
    simp only [Sys.step, step_get hc]
    rcases shmget_cases s.st k sz f with ⟨e, -⟩ | ⟨-, -, -, -, ⟨g', e, -⟩, -⟩
    · exact ⟨g, by rw [e]; exact hg, by simp [noMark], rfl, rfl⟩
    · exact ⟨g, by rw [e, upd_ne _ _ (Nat.ne_of_lt hlt)]; exact hg, by simp [noMark], rfl, rfl⟩
  · have hget : ∀ k sz f, op ≠ .get k sz f := fun k sz f e => hget ⟨k, sz, f, e⟩
    exact key (m := marks op) (fun i => by simp [marks]) ((step_evo s.st c op hc hget).old id g hg)

/-- **C35, partial.**  `IPC_RMID` of a segment that is attached leaves every attachment and the segment. -/
theorem rmid_attached_partial {s : Sys} (h : Reach s) {c id : Nat} (hc : s.st.rev c ≠ none) (ha : 0 < total s.atts id) :
    (step s.st c (.rmid id)).2 = .r (.ok 0) ∧ (s.step c (.rmid id)).atts = s.atts ∧
      (s.step c (.rmid id)).st.rev = s.st.rev ∧ Marked (s.step c (.rmid id)).st id := by
  obtain ⟨rv, hrv⟩ := Option.ne_none_iff_exists'.1 hc
  obtain ⟨a, hm, e⟩ := total_pos.1 ha
  obtain ⟨g, hg⟩ := Option.ne_none_iff_exists'.1 (e ▸ h.inv.core.live a hm)
  have hn := h.inv.core.nattch id g hg
  refine ⟨by simp only [step, hrv, rmid, hg], by simp [Sys.step, attAfter], ?_, ?_⟩
  · simp only [Sys.step, step, hrv, rmid, hg, putSeg_rev]
  · simp only [Sys.step, step, hrv, rmid, hg, State.putSeg]
    rw [if_neg (by rintro ⟨-, e⟩; omega)]
    exact ⟨_, upd_same _ _ _, rfl⟩

/-- **C35.**  A key finds a segment that exists and was made under that key; so the key of a destroyed segment does not
find it. -/
theorem key_found {s : Sys} (h : Reach s) {k : Int} {id : Nat} :
    s.st.keys k = some id ↔ ∃ g, s.st.segs id = some g ∧ g.key = k := h.inv.core.key k id

/-- **C35, partial.**  What `shmget` gives: an existing segment of that key, or, if there is none, a new one with a number
never used before. -/
theorem shmget_partial {s : Sys} (h : Reach s) {c : Nat} (hc : s.st.rev c ≠ none) {k : Int} {sz : Nat} {f : BitVec 32} {v : Int}
    (hv : (step s.st c (.get k sz f)).2 = .r (.ok v)) :
    (∃ (id : Nat) (g : Seg), v = id ∧ s.st.segs id = some g ∧ g.key = k ∧ (step s.st c (.get k sz f)).1 = s.st) ∨
      ((∀ id g, s.st.segs id = some g → g.key ≠ k) ∧ v = s.st.next ∧ s.st.segs s.st.next = none ∧
        ∃ g, (step s.st c (.get k sz f)).1.segs s.st.next = some g ∧ g.key = k ∧ g.size = sz ∧ g.rmid = false) := by
  rw [step_get hc] at *
  rcases shmget_cases s.st k sz f with ⟨e, h1⟩ | ⟨h1, h2, h3, h4, ⟨g, h5, h6, h7, h8, -⟩, -⟩
  · obtain ⟨id, e1, e2, -⟩ := h1 v hv
    obtain ⟨g, e3, e4⟩ := (h.inv.core.key k id).1 e1
    exact .inl ⟨id, g, e2, e3, e4, e⟩
  · refine .inr ⟨fun id x hx e => ?_, ?_, ?_, g, by rw [h5]; simp, h7, h8, h6⟩
    · have := (h.inv.core.key k id).2 ⟨x, hx, e⟩
      rw [h1] at this; cases this
    · rw [h2] at hv; cases hv; rfl
    · cases hx : s.st.segs s.st.next with
      | none => rfl
      | some g => exact absurd (h.inv.core.bound s.st.next (by rw [hx]; simp)) (Nat.lt_irrefl _)

/-- **C35.**  `shmget` with both `IPC_CREAT` and `IPC_EXCL` never gives a segment that exists. -/
theorem excl_new {s : Sys} (h : Reach s) {c : Nat} (hc : s.st.rev c ≠ none) {k : Int} {sz : Nat} {f : BitVec 32} {v : Int}
    (hf : f &&& (ipcCreat ||| ipcExcl) = ipcCreat ||| ipcExcl)
    (hv : (step s.st c (.get k sz f)).2 = .r (.ok v)) : s.st.segs v.toNat = none := by
  rw [step_get hc] at *
  rcases shmget_cases s.st k sz f with ⟨-, h1⟩ | ⟨-, h2, -⟩
  · obtain ⟨id, -, -, e⟩ := h1 v hv
    exact absurd hf e
  · rw [h2] at hv; cases hv
    show s.st.segs s.st.next = none
    cases hx : s.st.segs s.st.next with
    | none => rfl
    | some g => exact absurd (h.inv.core.bound s.st.next (by rw [hx]; simp)) (Nat.lt_irrefl _)

/-- A history of any calls by any cages. -/
inductive Later : State → State → Prop
  | refl {s} : Later s s
  | step {s s' c op} : Later s s' → Later s (step s' c op).1

theorem Later.keep {s s' : State} (h : Later s s') : s.next ≤ s'.next ∧ ∀ id, id < s.next → s.segs id = none → s'.segs id = none := by
  induction h with
  | refl => exact ⟨Nat.le_refl _, fun _ _ h => h⟩
  | @step s' c op _ ih =>
    obtain ⟨i1, i2⟩ := ih
    by_cases hc : s'.rev c = none
    · rw [step_nocage hc]; exact ⟨i1, i2⟩
    by_cases hget : ∃ k sz f, op = .get k sz f
    · obtain ⟨k, sz, f, rfl⟩ := hget
      rw [step_get hc]
      rcases shmget_cases s' k sz f with ⟨e, -⟩ | ⟨-, -, e1, -, ⟨g', e, -⟩, -⟩
      · rw [e]; exact ⟨i1, i2⟩
      · refine ⟨by omega, fun id hl hn => ?_⟩
        rw [e, upd_ne _ _ (by omega)]; exact i2 id hl hn
    · have hget : ∀ k sz f, op ≠ .get k sz f := fun k sz f e => hget ⟨k, sz, f, e⟩
      have := step_evo s' c op hc hget
      exact ⟨by rw [this.next]; exact i1, fun id hl hn => this.free id (i2 id hl hn)⟩

/-- **C35.**  Identifiers are not reused: once a segment is gone, its number finds nothing after any calls whatever (clean
or not), and a segment made later has another number. -/
theorem id_not_reused {s : Sys} {s' s'' : State} {id : Nat} (h : Reach s) (hid : s.st.segs id ≠ none) (h1 : Later s.st s')
    (hgone : s'.segs id = none) (h2 : Later s' s'') :
    s''.segs id = none ∧ ∀ c k sz f v, s''.rev c ≠ none → s''.keys k = none → (step s'' c (.get k sz f)).2 = .r (.ok v) → v ≠ id := by
  have hb := h.inv.core.bound id hid
  have hb' : id < s'.next := Nat.lt_of_lt_of_le hb h1.keep.1
  refine ⟨h2.keep.2 id hb' hgone, fun c k sz f v hc hk hv => ?_⟩
  rw [step_get hc] at hv
  rcases shmget_cases s'' k sz f with ⟨-, e⟩ | ⟨-, e, -⟩
  · obtain ⟨i, e1, -⟩ := e v hv
    rw [hk] at e1; cases e1
  · rw [e] at hv
    have := h2.keep.1
    cases hv
    intro e
    have : s''.next = id := Int.ofNat.inj e
    omega

/-! ## Examples -/

def runSys (s : Sys) : List (Nat × Op) → Sys
  | [] => s
  | (c, op) :: r => runSys (s.step c op) r

def CleanAll : Sys → List (Nat × Op) → Prop
  | _, [] => True
  | s, (c, op) :: r => Clean s.st c op ∧ CleanAll (s.step c op) r

theorem reach_run {s : Sys} (h : Reach s) (ops : List (Nat × Op)) (hc : CleanAll s ops) : Reach (runSys s ops) := by
  induction ops generalizing s with
  | nil => exact h
  | cons x xs ih => exact ih (h.step hc.1) hc.2

/-- Two attachments of one cage, a fork, a removal, the parent's exit. -/
def demoOps : List (Nat × Op) :=
  [(1, .get 7 4096 0o1600#32), (1, .at 1 0x10000 true), (1, .at 1 0x20000 true), (1, .fork 2), (2, .dt 0x10000), (1, .rmid 1)]

def demo : Sys := runSys .init demoOps

theorem demo_reach : Reach demo := by
  refine reach_run .init _ ?_
  simp only [demoOps, CleanAll, Clean, and_true, true_and]
  decide +kernel

/-- The theorems apply: three attachments, two of them in cage 1, the segment is marked; the exit of cage 1 keeps it, the
last detach destroys it, and the number is not given again. -/
example : total demo.atts 1 = 3 ∧ ofCage demo.atts 1 1 = 2 ∧ (step demo.st 2 (.stat 1)).2 = .stat 7 4096 0o1600#16 3 ∧
    ((demo.step 1 .exit).st.segs 1).isSome ∧
    (((demo.step 1 .exit).step 2 (.dt 0x20000)).st.segs 1).isNone ∧
    (step ((demo.step 1 .exit).step 2 (.dt 0x20000)).st 2 (.get 7 100 0o1000#32)).2 = .r (.ok 2) := by decide +kernel

/-! ## Violations -/

/-- **C34 fails.**  An attachment the host refuses (an address that is not a multiple of the page size) is counted all the
same. -/
theorem mmap_violated :
    let s := runSys .init [(1, .get 7 4096 0o1600#32), (1, .at 1 0x10001 false)]
    total s.atts 1 = 0 ∧ (step s.st 1 (.stat 1)).2 = .stat 7 4096 0o600#16 1 := by decide +kernel

/-- **C34 fails.**  A fork onto the number of a cage that exists overwrites that cage's count: the segment is removed under
a cage that still has it attached. -/
theorem fork_violated :
    let s := runSys .init [(1, .get 7 4096 0o1600#32), (1, .fork 2), (1, .at 1 0x10000 true), (2, .at 1 0x10000 true),
      (2, .at 1 0x20000 true), (1, .fork 2)]
    ofCage s.atts 2 1 = 3 ∧ ((s.st.segs 1).map (fun g => g.att 2)) = some (some 1) := by decide +kernel

/-- A marked segment is still found by its key as long as it is attached (other systems hide it at once). -/
theorem marked_key_found :
    (step demo.st 2 (.get 7 0 0#32)).2 = .r (.ok 1) ∧ (step demo.st 2 (.get 7 100 0o3000#32)).2 = .r (.err .EEXIST) := by
  decide +kernel

end Verif.Shm
