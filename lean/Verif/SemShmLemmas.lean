import Verif.SemShmSpec
import Verif.ShmProps

/-!
# The invariant for C94
-/

namespace Verif.SemShm
open Verif.Shm (State Seg Att Sys)

/-! ## Shared memory -/

/-- `attached_cages` and the tables of the cages agree. -/
theorem att_iff {sh : State} {A : List Att} (hi : Shm.Inv ⟨sh, A⟩) {id : Nat} {g : Seg} (hg : sh.segs id = some g) (p : Nat) :
    g.att p ≠ none ↔ ∃ a rv, sh.rev p = some rv ∧ (a, id) ∈ rv := by
  have h := hi.core.att id g hg p (by simp)
  dsimp only at h
  have h1 : g.att p ≠ none ↔ 0 < Shm.ofCage A p id := by
    rw [h, Shm.asEntry]; split <;> simp <;> omega
  rw [h1, Shm.ofCage_pos]
  constructor
  · rintro ⟨x, hx, e1, e2⟩
    cases hr : sh.rev p with
    | none => exact absurd e1 (hi.gone p hr x hx)
    | some rv =>
      have := (hi.rev p rv hr).mem_iff.2 (List.mem_filter.2 ⟨hx, by simp [e1]⟩)
      obtain ⟨u, hu, e⟩ := List.mem_map.1 this
      refine ⟨u.1, rv, rfl, ?_⟩
      rw [← e2, ← e]; exact hu
  · rintro ⟨a, rv, hr, hm⟩
    have := (hi.rev p rv hr).mem_iff.1 (List.mem_map.2 ⟨_, hm, rfl⟩)
    exact ⟨_, (List.mem_filter.1 this).1, rfl, rfl⟩

theorem live {sh : State} {A : List Att} (hi : Shm.Inv ⟨sh, A⟩) {p a id : Nat} {rv : List (Nat × Nat)} (hr : sh.rev p = some rv)
    (hm : (a, id) ∈ rv) : sh.segs id ≠ none := by
  have := (hi.rev p rv hr).mem_iff.1 (List.mem_map.2 ⟨_, hm, rfl⟩)
  exact hi.core.live _ (List.mem_filter.1 this).1

/-- What a segment is does not change; new ones have a size. -/
theorem seg_back {sh : State} {A : List Att} (hi : Shm.Inv ⟨sh, A⟩) {c : Nat} (hc : sh.rev c ≠ none) (op : Shm.Op) {id : Nat} {g' : Seg}
    (hg : (Shm.step sh c op).1.segs id = some g') :
    (∃ g, sh.segs id = some g ∧ g.size = g'.size) ∨ (sh.segs id = none ∧ 0 < g'.size) := by
  by_cases ho : ∃ k sz f, op = .get k sz f
  · obtain ⟨k, sz, f, rfl⟩ := ho
    rw [Shm.step_get hc] at hg
    have key : (Shm.shmget sh k sz f).1 = sh ∨ ((Shm.shmget sh k sz f).1.segs = upd sh.segs sh.next
        (some { key := k, size := sz, mode := (f &&& 0x1FF).setWidth 16 }) ∧ 0 < sz) := by
      unfold Shm.shmget
      repeat' split
      all_goals first
        | exact .inl rfl
        | skip
      refine .inr ⟨rfl, ?_⟩
      rename_i h
      rcases Nat.eq_zero_or_pos sz with e | e
      · subst e; exact absurd (.inl (by decide)) h
      · exact e
    rcases key with e | ⟨e, hp⟩
    · rw [e] at hg; exact .inl ⟨g', hg, rfl⟩
    · rw [e, upd_apply] at hg
      split at hg
      · rename_i e'
        cases hg
        refine .inr ⟨?_, hp⟩
        cases hs : sh.segs id with
        | none => rfl
        | some g =>
          have := hi.core.bound id (by dsimp only; rw [hs]; exact fun h => nomatch h)
          dsimp only at this
          omega
      · exact .inl ⟨g', hg, rfl⟩
  · have ev := Shm.step_evo sh c op hc (fun k sz f e => ho ⟨k, sz, f, e⟩)
    cases hs : sh.segs id with
    | none => rw [ev.free id hs] at hg; cases hg
    | some g =>
      rcases ev.old id g hs with ⟨e, -⟩ | ⟨g'', e, -, -, e4⟩
      · rw [e] at hg; cases hg
      · rw [e] at hg; cases hg; exact .inl ⟨g, rfl, e4.symm⟩

/-! ## The loops -/

theorem add32_lt {chk : Bool} {a b : Nat} (h : a + b < w32) : add32 chk a b = some (a + b) := if_pos h

theorem sub32_self (chk : Bool) (a : Nat) : sub32 chk a a = some 0 := by
  unfold sub32; rw [if_pos (Nat.le_refl a), Nat.sub_self]

theorem places_zero (chk : Bool) : ∀ l : List Nat, (∀ a ∈ l, a < w32) → places chk 0 l = some l
  | [], _ => rfl
  | a :: as, h => by
    have h1 : add32 chk a 0 = some a := add32_lt (by have := h a List.mem_cons_self; omega)
    simp only [places, h1, places_zero chk as (fun x hx => h x (List.mem_cons_of_mem _ hx))]

theorem mem_addrsOf {rv : List (Nat × Nat)} {id a : Nat} : a ∈ addrsOf rv id ↔ (a, id) ∈ rv := by
  simp only [addrsOf, List.mem_map, List.mem_filter, beq_iff_eq, Prod.exists]
  constructor
  · rintro ⟨x, y, ⟨h, rfl⟩, rfl⟩; exact h
  · intro h; exact ⟨a, id, ⟨h, rfl⟩, rfl⟩

/-- Where every attachment fits below 2^32, the search finds the segment that holds the address. -/
theorem search_spec {chk : Bool} {segs : Nat → Option Seg} {h : Nat} : ∀ {rv : List (Nat × Nat)},
    (∀ a id g, (a, id) ∈ rv → segs id = some g → a + g.size < w32) →
    (search chk segs h rv = some none ∧ ∀ a id g, (a, id) ∈ rv → segs id = some g → ¬ (a ≤ h ∧ h < a + g.size)) ∨
    ∃ a id g, search chk segs h rv = some (some (a, id)) ∧ (a, id) ∈ rv ∧ segs id = some g ∧ a ≤ h ∧ h < a + g.size
  | [], _ => .inl ⟨rfl, fun a id g hm => nomatch hm⟩
  | (a, id) :: us, hf => by
    have ih := search_spec (chk := chk) (segs := segs) (h := h) (rv := us) (fun a id g hm => hf a id g (List.mem_cons_of_mem _ hm))
    have lift : (search chk segs h ((a, id) :: us) = search chk segs h us) →
        (∀ g, segs id = some g → ¬ (a ≤ h ∧ h < a + g.size)) →
        (search chk segs h ((a, id) :: us) = some none ∧
          ∀ a' id' g, (a', id') ∈ (a, id) :: us → segs id' = some g → ¬ (a' ≤ h ∧ h < a' + g.size)) ∨
        ∃ a' id' g, search chk segs h ((a, id) :: us) = some (some (a', id')) ∧ (a', id') ∈ (a, id) :: us ∧ segs id' = some g ∧ a' ≤ h ∧ h < a' + g.size := by
      intro e hn
      rw [e]
      rcases ih with ⟨h1, h2⟩ | ⟨a', id', g, h1, h2, h3⟩
      · refine .inl ⟨h1, fun a' id' g hm hg => ?_⟩
        rcases List.mem_cons.1 hm with e' | hm
        · cases e'; exact hn g hg
        · exact h2 a' id' g hm hg
      · exact .inr ⟨a', id', g, h1, List.mem_cons_of_mem _ h2, h3⟩
    cases hs : segs id with
    | none => exact lift (by simp only [search, hs]) (fun g hg => by rw [hs] at hg; cases hg)
    | some g =>
      have hlt := hf a id g List.mem_cons_self hs
      have hmod : g.size % w32 = g.size := Nat.mod_eq_of_lt (by omega)
      have hadd : add32 chk a (g.size % w32) = some (a + g.size) := by rw [hmod]; exact add32_lt hlt
      by_cases hin : a ≤ h ∧ h < a + g.size
      · exact .inr ⟨a, id, g, by simp only [search, hs, hadd, if_pos hin], List.mem_cons_self, hs, hin⟩
      · refine lift (by simp only [search, hs, hadd, if_neg hin]) (fun g' hg => ?_)
        rw [hs] at hg; cases hg; exact hin

/-! ## The invariant -/

structure Inv (s : St) : Prop where
  shm : ∃ A, Shm.Inv ⟨s.sh, A⟩
  pos : ∀ id g, s.sh.segs id = some g → 0 < g.size
  fit : ∀ c a id g, Attached s c a id → s.sh.segs id = some g → a + g.size < w32
  disj : ∀ c h id d id' d', At s c h id d → At s c h id' d' → id = id' ∧ d = d'
  nodup : ∀ c rv, s.sh.rev c = some rv → rv.Nodup
  offs0 : ∀ id, s.offs id = [] ∨ s.offs id = [0]
  inreg : ∀ c h id d o, At s c h id d → s.tab c h = some o → d = 0 ∧ s.offs id = [0] ∧ s.shared o = true
  same : Same s
  lt : ∀ c h o, s.tab c h = some o → o < s.next

theorem Inv.seg {s : St} (hi : Inv s) {c a id : Nat} (h : Attached s c a id) : ∃ g, s.sh.segs id = some g := by
  obtain ⟨A, hA⟩ := hi.shm
  obtain ⟨rv, hr, hm⟩ := h
  exact Option.ne_none_iff_exists'.1 (live hA hr hm)

theorem Inv.start {s : St} (hi : Inv s) {c a id : Nat} (h : Attached s c a id) : At s c a id 0 := by
  obtain ⟨g, hg⟩ := hi.seg h
  exact ⟨a, g, h, hg, hi.pos id g hg, rfl⟩

theorem Inv.at0 {s : St} {c a id : Nat} (h : At s c a id 0) : Attached s c a id := by
  obtain ⟨b, g, hb, -, -, rfl⟩ := h; exact hb

theorem Inv.attc {s : St} (hi : Inv s) {id : Nat} {g : Seg} (hg : s.sh.segs id = some g) (p : Nat) :
    g.att p ≠ none ↔ ∃ a, Attached s p a id := by
  obtain ⟨A, hA⟩ := hi.shm
  exact att_iff hA hg p

theorem inv_init : Inv init := by
  refine ⟨⟨[], Shm.Inv.init⟩, fun id g h => (by cases h), ?_, ?_, ?_, fun _ => .inl rfl, ?_, ?_, fun c h o e => by cases e⟩
  · rintro c a id g - h; cases h
  · rintro c h id d id' d' ⟨a, g, -, hg, -⟩; cases hg
  · intro c rv h
    simp only [init, Shm.init] at h
    split at h
    · cases h; exact List.nodup_nil
    · cases h
  · rintro c h id d o ⟨a, g, -, hg, -⟩; cases hg
  · rintro c h c' h' id d ⟨a, g, -, hg, -⟩; cases hg

/-- Attachments come from attachments (of process `f p`), and what they see stays. -/
theorem Inv.mono {s s' : St} (hi : Inv s) (f : Nat → Nat) (hshm : ∃ A, Shm.Inv ⟨s'.sh, A⟩)
    (hseg : ∀ id g', s'.sh.segs id = some g' → (∃ g, s.sh.segs id = some g ∧ g.size = g'.size) ∨ (s.sh.segs id = none ∧ 0 < g'.size))
    (hat : ∀ p a id, Attached s' p a id → Attached s (f p) a id)
    (hnd : ∀ c rv, s'.sh.rev c = some rv → rv.Nodup) (hoffs : s'.offs = s.offs)
    (htab : ∀ p h id d, At s' p h id d → s'.tab p h = s.tab (f p) h)
    (hsh : ∀ o, o < s.next → s'.shared o = s.shared o) (hlt : ∀ c h o, s'.tab c h = some o → o < s'.next) : Inv s' := by
  have back : ∀ p h id d, At s' p h id d → At s (f p) h id d := by
    rintro p h id d ⟨a, g', ha, hg, hd, rfl⟩
    have ha' := hat p a id ha
    obtain ⟨g, e⟩ := hi.seg ha'
    rcases hseg id g' hg with ⟨g2, e2, e3⟩ | ⟨e2, -⟩
    · exact ⟨a, g2, ha', e2, by rw [e3]; exact hd, rfl⟩
    · rw [e2] at e; cases e
  refine ⟨hshm, ?_, ?_, ?_, hnd, ?_, ?_, ?_, hlt⟩
  · intro id g' hg
    rcases hseg id g' hg with ⟨g, e2, e3⟩ | ⟨-, e⟩
    · rw [← e3]; exact hi.pos id g e2
    · exact e
  · intro c a id g' ha hg
    rcases hseg id g' hg with ⟨g, e2, e3⟩ | ⟨e2, -⟩
    · rw [← e3]; exact hi.fit _ a id g (hat c a id ha) e2
    · obtain ⟨g, e⟩ := hi.seg (hat c a id ha)
      rw [e2] at e; cases e
  · intro c h id d id' d' h1 h2
    exact hi.disj (f c) h id d id' d' (back _ _ _ _ h1) (back _ _ _ _ h2)
  · intro id; rw [hoffs]; exact hi.offs0 id
  · intro c h id d o h1 h2
    rw [htab c h id d h1] at h2
    obtain ⟨e1, e2, e3⟩ := hi.inreg (f c) h id d o (back _ _ _ _ h1) h2
    exact ⟨e1, by rw [hoffs]; exact e2, by rw [hsh o (hi.lt _ _ _ h2)]; exact e3⟩
  · intro c h c' h' id d h1 h2
    rw [htab c h id d h1, htab c' h' id d h2]
    exact hi.same (f c) h (f c') h' id d (back _ _ _ _ h1) (back _ _ _ _ h2)

end Verif.SemShm
