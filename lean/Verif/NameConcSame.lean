import Verif.NameConcRel

/-! One inode number: how the relation `InoRel` follows one step of one thread. -/

namespace Verif.NameConc
open Verif.Path Verif.Fs

variable {N t : Nat} {σ : Nat → Sig} {z : Sig} {x y : Inode}

/-- Only the counts and the names matter. -/
theorem Same.sig (h : Same N σ x y) (e1 : z.add = (σ t).add) (e2 : z.rm = (σ t).rm) (e3 : z.up = (σ t).up) (ht : t < N) :
    Same N (upd σ t z) x y := by
  have a1 : ∀ u, (upd σ t z u).add = (σ u).add := by
    intro u; by_cases e : u = t
    · subst e; simpa using e1
    · simp [e]
  have a2 : ∀ u, (upd σ t z u).rm = (σ u).rm := by
    intro u; by_cases e : u = t
    · subst e; simpa using e2
    · simp [e]
  have t1 := tot_upd ht σ z Sig.adds
  have t2 := tot_upd ht σ z Sig.up
  have t3 := tot_upd ht σ z Sig.rms
  simp only [Sig.adds, Sig.rms, e1, e2, e3] at t1 t2 t3
  have h1 := h.link
  refine ⟨h.kind, h.mode, h.size, h.ref, ?_, h.dlink, h.nodup, ?_, ?_, ?_⟩
  · omega
  · simp only [a1, a2]; exact h.mem
  · simp only [a1]; exact h.addNew
  · simp only [a2]; exact h.rmOld

/-- The entry is there in the specification, and to be added here. -/
theorem Same.addBegin (h : Same N σ x y) (ht : t < N) {n : Name} {k : Nat} (e0 : (σ t).add = none) (e1 : z.add = some (n, k))
    (e2 : z.rm = (σ t).rm) (e3 : z.up = (σ t).up) (hx : entGet x.ents n = none) (hy : entGet y.ents n = none)
    (hr : ∀ u, (σ u).rm ≠ some n) :
    Same N (upd σ t z) x { y with ents := entPut y.ents n k, link := y.link + 1 } := by
  have a2 : ∀ u, (upd σ t z u).rm = (σ u).rm := by
    intro u; by_cases e : u = t
    · subst e; simpa using e2
    · simp [e]
  have a1 : ∀ u, (upd σ t z u).add = if u = t then some (n, k) else (σ u).add := by
    intro u; by_cases e : u = t
    · subst e; simpa using e1
    · simp [e]
  have t1 := tot_upd ht σ z Sig.adds
  have t2 := tot_upd ht σ z Sig.up
  have t3 := tot_upd ht σ z Sig.rms
  simp only [Sig.adds, Sig.rms, e0, e1, e2, e3, Option.isSome_none, Option.isSome_some, Bool.toNat_true, Bool.toNat_false] at t1 t2 t3
  have h1 := h.link
  have hl : (entPut y.ents n k).length = y.ents.length + 1 := by simp only [entPut, entDel_self hy, List.length_cons]
  refine ⟨h.kind, h.mode, h.size, h.ref, ?_, ?_, h.nodup, ?_, ?_, ?_⟩
  · dsimp only; omega
  · intro hk; have := h.dlink hk; dsimp only; omega
  · intro m j
    have hm := h.mem m j
    simp only [a2]
    rw [mem_entPut]
    constructor
    · rintro (⟨rfl, rfl⟩ | ⟨h2, h3⟩)
      · exact .inr ⟨t, by rw [a1, if_pos rfl]⟩
      · rcases hm.1 h2 with h4 | ⟨u, h4⟩
        · exact .inl h4
        · refine .inr ⟨u, ?_⟩
          rw [a1, if_neg (fun e => by rw [e, e0] at h4; cases h4)]; exact h4
    · rintro (h2 | ⟨u, h2⟩)
      · have hmn : m ≠ n := fun e => by subst e; exact entGet_none.1 hx _ h2.1
        exact .inr ⟨hm.2 (.inl h2), hmn⟩
      · rw [a1] at h2
        split at h2
        · cases h2; exact .inl ⟨rfl, rfl⟩
        · have h3 := hm.2 (.inr ⟨u, h2⟩)
          exact .inr ⟨h3, fun e => by subst e; exact entGet_none.1 hy _ h3⟩
  · intro u m j hu
    rw [a1] at hu
    split at hu
    · cases hu; exact hx
    · exact h.addNew u m j hu
  · intro u m hu
    rw [a2] at hu; exact h.rmOld u m hu

/-- The entry is added. -/
theorem Same.addEnd (h : Same N σ x y) (ht : t < N) {n : Name} {k : Nat} (e0 : (σ t).add = some (n, k)) (e1 : z.add = none)
    (e2 : z.rm = (σ t).rm) (e3 : z.up = (σ t).up) (hr : ∀ u, (σ u).rm ≠ some n)
    (ha : ∀ u, u ≠ t → ∀ j, (σ u).add ≠ some (n, j)) :
    Same N (upd σ t z) { x with ents := entPut x.ents n k, link := x.link + 1 } y := by
  have hx := h.addNew _ _ _ e0
  have a2 : ∀ u, (upd σ t z u).rm = (σ u).rm := by
    intro u; by_cases e : u = t
    · subst e; simpa using e2
    · simp [e]
  have a1 : ∀ u, (upd σ t z u).add = if u = t then none else (σ u).add := by
    intro u; by_cases e : u = t
    · subst e; simpa using e1
    · simp [e]
  have t1 := tot_upd ht σ z Sig.adds
  have t2 := tot_upd ht σ z Sig.up
  have t3 := tot_upd ht σ z Sig.rms
  simp only [Sig.adds, Sig.rms, e0, e1, e2, e3, Option.isSome_none, Option.isSome_some, Bool.toNat_true, Bool.toNat_false] at t1 t2 t3
  have h1 := h.link
  have hl : (entPut x.ents n k).length = x.ents.length + 1 := by simp only [entPut, entDel_self hx, List.length_cons]
  refine ⟨h.kind, h.mode, h.size, h.ref, ?_, ?_, entPut_nodup h.nodup _ _, ?_, ?_, ?_⟩
  · dsimp only; omega
  · intro hk; have := h.dlink hk; dsimp only; omega
  · intro m j
    have hm := h.mem m j
    simp only [a2]
    rw [mem_entPut, hm]
    constructor
    · rintro (h2 | ⟨u, h2⟩)
      · exact .inl ⟨.inr ⟨h2.1, fun e => by subst e; exact entGet_none.1 hx _ h2.1⟩, h2.2⟩
      · by_cases e : u = t
        · subst e; rw [e0] at h2; cases h2
          exact .inl ⟨.inl ⟨rfl, rfl⟩, hr⟩
        · exact .inr ⟨u, by rw [a1, if_neg e]; exact h2⟩
    · rintro (⟨⟨rfl, rfl⟩ | ⟨h2, -⟩, h4⟩ | ⟨u, h2⟩)
      · exact .inr ⟨t, e0⟩
      · exact .inl ⟨h2, h4⟩
      · rw [a1] at h2
        split at h2
        · cases h2
        · exact .inr ⟨u, h2⟩
  · intro u m j hu
    rw [a1] at hu
    split at hu
    · cases hu
    · rename_i hne
      rw [entGet_entPut, if_neg (fun e => by subst e; exact ha u hne _ hu)]
      exact h.addNew u m j hu
  · intro u m hu
    rw [a2] at hu
    obtain ⟨k', hk'⟩ := h.rmOld u m hu
    exact ⟨k', by rw [entGet_entPut, if_neg (fun e => by subst e; exact hr u hu)]; exact hk'⟩

/-- The entry is gone in the specification, and to be removed here. -/
theorem Same.rmBegin (h : Same N σ x y) (ht : t < N) {n : Name} (e0 : (σ t).rm = none) (e1 : z.rm = some n)
    (e2 : z.add = (σ t).add) (e3 : z.up = (σ t).up) {k : Nat} (hx : entGet x.ents n = some k) (hy : entGet y.ents n = some k)
    (hnd : (y.ents.map Prod.fst).Nodup) (hl0 : 0 < y.link)
    (ha : ∀ u j, (σ u).add ≠ some (n, j)) :
    Same N (upd σ t z) x { y with ents := entDel y.ents n, link := y.link - 1 } := by
  have a2 : ∀ u, (upd σ t z u).add = (σ u).add := by
    intro u; by_cases e : u = t
    · subst e; simpa using e2
    · simp [e]
  have a1 : ∀ u, (upd σ t z u).rm = if u = t then some n else (σ u).rm := by
    intro u; by_cases e : u = t
    · subst e; simpa using e1
    · simp [e]
  have t1 := tot_upd ht σ z Sig.adds
  have t2 := tot_upd ht σ z Sig.up
  have t3 := tot_upd ht σ z Sig.rms
  simp only [Sig.adds, Sig.rms, e0, e1, e2, e3, Option.isSome_none, Option.isSome_some, Bool.toNat_true, Bool.toNat_false] at t1 t2 t3
  have h1 := h.link
  have hl := entDel_length hnd hy
  refine ⟨h.kind, h.mode, h.size, h.ref, ?_, ?_, h.nodup, ?_, ?_, ?_⟩
  · dsimp only; omega
  · intro hk; have := h.dlink hk; dsimp only; omega
  · intro m j
    have hm := h.mem m j
    simp only [a2]
    rw [mem_entDel, hm]
    constructor
    · rintro ⟨h2 | h2, h3⟩
      · refine .inl ⟨h2.1, fun u hu => ?_⟩
        rw [a1] at hu
        split at hu
        · cases hu; exact h3 rfl
        · exact h2.2 u hu
      · exact .inr h2
    · rintro (⟨h2, h3⟩ | ⟨u, h2⟩)
      · have hmn : m ≠ n := fun e => by subst e; exact h3 t (by rw [a1, if_pos rfl])
        refine ⟨.inl ⟨h2, fun u hu => ?_⟩, hmn⟩
        by_cases e : u = t
        · subst e; rw [e0] at hu; cases hu
        · exact h3 u (by rw [a1, if_neg e]; exact hu)
      · exact ⟨.inr ⟨u, h2⟩, fun e => by subst e; exact ha u j h2⟩
  · intro u m j hu
    rw [a2] at hu
    exact h.addNew u m j hu
  · intro u m hu
    rw [a1] at hu
    split at hu
    · cases hu; exact ⟨k, hx⟩
    · exact h.rmOld u m hu

/-- The entry is removed. -/
theorem Same.rmEnd (h : Same N σ x y) (ht : t < N) {n : Name} (e0 : (σ t).rm = some n) (e1 : z.rm = none)
    (e2 : z.add = (σ t).add) (e3 : z.up = (σ t).up) (hl0 : 0 < x.link)
    (hr : ∀ u, u ≠ t → (σ u).rm ≠ some n) (ha : ∀ u j, (σ u).add ≠ some (n, j)) :
    Same N (upd σ t z) { x with ents := entDel x.ents n, link := x.link - 1 } y := by
  obtain ⟨k, hx⟩ := h.rmOld _ _ e0
  have a2 : ∀ u, (upd σ t z u).add = (σ u).add := by
    intro u; by_cases e : u = t
    · subst e; simpa using e2
    · simp [e]
  have a1 : ∀ u, (upd σ t z u).rm = if u = t then none else (σ u).rm := by
    intro u; by_cases e : u = t
    · subst e; simpa using e1
    · simp [e]
  have t1 := tot_upd ht σ z Sig.adds
  have t2 := tot_upd ht σ z Sig.up
  have t3 := tot_upd ht σ z Sig.rms
  simp only [Sig.adds, Sig.rms, e0, e1, e2, e3, Option.isSome_none, Option.isSome_some, Bool.toNat_true, Bool.toNat_false] at t1 t2 t3
  have h1 := h.link
  have hl := entDel_length h.nodup hx
  refine ⟨h.kind, h.mode, h.size, h.ref, ?_, ?_, entDel_nodup h.nodup _, ?_, ?_, ?_⟩
  · dsimp only; omega
  · intro hk; have := h.dlink hk; dsimp only; omega
  · intro m j
    have hm := h.mem m j
    simp only [a2]
    rw [mem_entDel, hm]
    constructor
    · rintro (⟨h2, h3⟩ | h2)
      · refine .inl ⟨⟨h2, fun e => by subst e; exact h3 t e0⟩, fun u hu => ?_⟩
        rw [a1] at hu
        split at hu
        · cases hu
        · exact h3 u hu
      · exact .inr h2
    · rintro (⟨⟨h2, h4⟩, h3⟩ | h2)
      · refine .inl ⟨h2, fun u hu => ?_⟩
        by_cases e : u = t
        · subst e; rw [e0] at hu; cases hu; exact h4 rfl
        · exact h3 u (by rw [a1, if_neg e]; exact hu)
      · exact .inr h2
  · intro u m j hu
    rw [a2] at hu
    rw [entGet_entDel_ne (fun e => by subst e; exact ha u j hu)]
    exact h.addNew u m j hu
  · intro u m hu
    rw [a1] at hu
    split at hu
    · cases hu
    · rename_i hne
      obtain ⟨k', hk'⟩ := h.rmOld u m hu
      exact ⟨k', by rw [entGet_entDel_ne (fun e => by subst e; exact hr u hne hu)]; exact hk'⟩

/-- The entry is added on both sides. -/
theorem Same.addBoth (h : Same N σ x y) {n : Name} {k : Nat} (hx : entGet x.ents n = none) (hy : entGet y.ents n = none)
    (hr : ∀ u, (σ u).rm ≠ some n) (ha : ∀ u j, (σ u).add ≠ some (n, j)) :
    Same N σ { x with ents := entPut x.ents n k, link := x.link + 1 } { y with ents := entPut y.ents n k, link := y.link + 1 } := by
  have h1 := h.link
  have hl : (entPut x.ents n k).length = x.ents.length + 1 := by simp only [entPut, entDel_self hx, List.length_cons]
  have hl' : (entPut y.ents n k).length = y.ents.length + 1 := by simp only [entPut, entDel_self hy, List.length_cons]
  refine ⟨h.kind, h.mode, h.size, h.ref, ?_, ?_, entPut_nodup h.nodup _ _, ?_, ?_, ?_⟩
  · dsimp only; omega
  · intro hk; have := h.dlink hk; dsimp only; omega
  · intro m j
    have hm := h.mem m j
    rw [mem_entPut, mem_entPut, hm]
    constructor
    · rintro (⟨rfl, rfl⟩ | ⟨h2 | h2, h3⟩)
      · exact .inl ⟨.inl ⟨rfl, rfl⟩, hr⟩
      · exact .inl ⟨.inr ⟨h2.1, h3⟩, h2.2⟩
      · exact .inr h2
    · rintro (⟨h2 | h2, h3⟩ | ⟨u, h2⟩)
      · exact .inl h2
      · exact .inr ⟨.inl ⟨h2.1, h3⟩, h2.2⟩
      · exact .inr ⟨.inr ⟨u, h2⟩, fun e => by subst e; exact ha _ _ h2⟩
  · intro u m j hu
    rw [entGet_entPut, if_neg (fun e => by subst e; exact ha _ _ hu)]
    exact h.addNew u m j hu
  · intro u m hu
    obtain ⟨k', hk'⟩ := h.rmOld u m hu
    exact ⟨k', by rw [entGet_entPut, if_neg (fun e => by subst e; exact hr u hu)]; exact hk'⟩

/-- The entry gets another name on both sides. -/
theorem Same.moveBoth (h : Same N σ x y) {o n : Name} {k : Nat} (hne : o ≠ n) (hx : entGet x.ents n = none) (hy : entGet y.ents n = none)
    (hnd : (y.ents.map Prod.fst).Nodup) (hox : entGet x.ents o = some k) (hoy : entGet y.ents o = some k)
    (hr : ∀ u, (σ u).rm ≠ some n) (ha : ∀ u j, (σ u).add ≠ some (n, j))
    (hr' : ∀ u, (σ u).rm ≠ some o) (ha' : ∀ u j, (σ u).add ≠ some (o, j)) :
    Same N σ { x with ents := entDel (entPut x.ents n k) o } { y with ents := entDel (entPut y.ents n k) o } := by
  have h1 := h.link
  have hl : (entPut x.ents n k).length = x.ents.length + 1 := by simp only [entPut, entDel_self hx, List.length_cons]
  have hl' : (entPut y.ents n k).length = y.ents.length + 1 := by simp only [entPut, entDel_self hy, List.length_cons]
  have hd := entDel_length (entPut_nodup h.nodup n k) (n := o) (i := k) (by rw [entGet_entPut, if_neg (Ne.symm hne)]; exact hox)
  have hd' := entDel_length (entPut_nodup hnd n k) (n := o) (i := k) (by rw [entGet_entPut, if_neg (Ne.symm hne)]; exact hoy)
  refine ⟨h.kind, h.mode, h.size, h.ref, h1, ?_, entDel_nodup (entPut_nodup h.nodup _ _) _, ?_, ?_, ?_⟩
  · intro hk; have := h.dlink hk; dsimp only; omega
  · intro m j
    have hm := h.mem m j
    rw [mem_entDel, mem_entDel, mem_entPut, mem_entPut, hm]
    constructor
    · rintro ⟨⟨rfl, rfl⟩ | ⟨h2 | h2, h3⟩, h4⟩
      · exact .inl ⟨⟨.inl ⟨rfl, rfl⟩, h4⟩, hr⟩
      · exact .inl ⟨⟨.inr ⟨h2.1, h3⟩, h4⟩, h2.2⟩
      · exact .inr h2
    · rintro (⟨⟨h2 | h2, h4⟩, h3⟩ | ⟨u, h2⟩)
      · exact ⟨.inl h2, h4⟩
      · exact ⟨.inr ⟨.inl ⟨h2.1, h3⟩, h2.2⟩, h4⟩
      · exact ⟨.inr ⟨.inr ⟨u, h2⟩, fun e => by subst e; exact ha _ _ h2⟩, fun e => by subst e; exact ha' _ _ h2⟩
  · intro u m j hu
    rw [entGet_entDel_ne (fun e => by subst e; exact ha' _ _ hu), entGet_entPut, if_neg (fun e => by subst e; exact ha _ _ hu)]
    exact h.addNew u m j hu
  · intro u m hu
    obtain ⟨k', hk'⟩ := h.rmOld u m hu
    exact ⟨k', by
      rw [entGet_entDel_ne (fun e => by subst e; exact hr' u hu), entGet_entPut, if_neg (fun e => by subst e; exact hr u hu)]
      exact hk'⟩

/-- Attributes change on both sides; the number of links on either side. -/
theorem Same.attrs (h : Same N σ x y) (ht : t < N) {x' y' : Inode} (e1 : z.add = (σ t).add) (e2 : z.rm = (σ t).rm)
    (hk : x'.kind = y'.kind) (hm : x'.mode = y'.mode) (hs : x'.size = y'.size) (hr : x'.ref = y'.ref)
    (hxe : x'.ents = x.ents) (hye : y'.ents = y.ents) (hky : y'.kind = y.kind)
    (hl : x'.link + y.link + (σ t).up.toNat = x.link + y'.link + z.up.toNat)
    (hdl : y.kind = .dir → x'.link = x.link ∧ y'.link = y.link) :
    Same N (upd σ t z) x' y' := by
  have a1 : ∀ u, (upd σ t z u).add = (σ u).add := by
    intro u; by_cases e : u = t
    · subst e; simpa using e1
    · simp [e]
  have a2 : ∀ u, (upd σ t z u).rm = (σ u).rm := by
    intro u; by_cases e : u = t
    · subst e; simpa using e2
    · simp [e]
  have t1 := tot_upd ht σ z Sig.adds
  have t2 := tot_upd ht σ z Sig.up
  have t3 := tot_upd ht σ z Sig.rms
  simp only [Sig.adds, Sig.rms, e1, e2] at t1 t2 t3
  have h1 := h.link
  refine ⟨hk, hm, hs, hr, ?_, ?_, by rw [hxe]; exact h.nodup, ?_, ?_, ?_⟩
  · omega
  · intro hd; rw [hky] at hd; rw [hxe, hye, (hdl hd).1, (hdl hd).2]; exact h.dlink hd
  · rw [hxe, hye]; simp only [a1, a2]; exact h.mem
  · rw [hxe]; simp only [a1]; exact h.addNew
  · rw [hxe]; simp only [a2]; exact h.rmOld

/-- Nothing pending: the inode is its own counterpart. -/
theorem Same.refl (hn : (x.ents.map Prod.fst).Nodup) (h : ∀ u, (σ u).add = none ∧ (σ u).rm = none ∧ (σ u).up = false) :
    Same N σ x x := by
  have t1 : tot N σ Sig.adds = 0 := tot_zero (fun u => by simp [Sig.adds, (h u).1])
  have t2 : tot N σ Sig.up = 0 := tot_zero (fun u => (h u).2.2)
  have t3 : tot N σ Sig.rms = 0 := tot_zero (fun u => by simp [Sig.rms, (h u).2.1])
  refine ⟨rfl, rfl, rfl, rfl, by omega, fun _ => rfl, hn, ?_, ?_, ?_⟩
  · intro n k; simp [h]
  · intro u n k hu; rw [(h u).1] at hu; cases hu
  · intro u n hu; rw [(h u).2.1] at hu; cases hu

/-! ## `InoRel` -/

variable {ox oy : Option Inode} {fo fo' : Option Nat} {dk dk' : Option (List UInt8)} {h h' : Nat}

theorem InoRel.keep (r : InoRel N σ ox oy fo fo' dk dk' h h') (hz : z = σ t) :
    InoRel N (upd σ t z) ox oy fo fo' dk dk' h h' := by
  subst hz; rw [upd_self]; exact r

/-- The inode is there on both sides, and nobody is creating it. -/
theorem InoRel.put (hd : ∀ u, u ≠ t → (σ u).doom = none) (hf : ∀ u, u ≠ t → (σ u).fresh = none) (ho : ∀ u, u ≠ t → (σ u).opn = false)
    (z1 : z.doom = none) (z2 : z.fresh = none) (z3 : z.opn = false)
    (hs : Same N (upd σ t z) x y) (e1 : fo = fo') (e2 : dk = dk')
    (hh : h' = h + tot N (upd σ t z) Sig.cls) :
    InoRel N (upd σ t z) (some x) (some y) fo fo' dk dk' h h' := by
  have b1 : ∀ u, (upd σ t z u).doom = none := fun u => by by_cases e : u = t <;> simp_all
  have b2 : ∀ u, (upd σ t z u).fresh = none := fun u => by by_cases e : u = t <;> simp_all
  have b3 : ∀ u, (upd σ t z u).opn = false := fun u => by by_cases e : u = t <;> simp_all
  constructor
  · intro u nd hu; rw [b2] at hu; cases hu
  · intro u b hu; rw [b1] at hu; cases hu
  · intro u v b b' hu; rw [b1] at hu; cases hu
  · intro hu; cases hu
  · intro nd' hu _; cases hu; exact ⟨x, rfl, hs⟩
  · intro u hu; rw [b3] at hu; cases hu
  · intro _; exact ⟨e1, e2⟩
  · rw [tot_zero b3]; exact hh

/-- The inode is gone in the specification. -/
theorem InoRel.kill (hd : ∀ u, u ≠ t → (σ u).doom = none) (hf : ∀ u, u ≠ t → (σ u).fresh = none) (ho : ∀ u, u ≠ t → (σ u).opn = false)
    {b : Bool} (z1 : z.doom = some b) (z2 : z.fresh = none) (z3 : z.opn = false)
    (e2 : b = true → dk ≠ none) (e3 : b = false → dk = none)
    (hh : h' = h + tot N (upd σ t z) Sig.cls) :
    InoRel N (upd σ t z) (some x) none none none dk none h h' := by
  have b2 : ∀ u, (upd σ t z u).fresh = none := fun u => by by_cases e : u = t <;> simp_all
  have b3 : ∀ u, (upd σ t z u).opn = false := fun u => by by_cases e : u = t <;> simp_all
  have b1 : ∀ u b', (upd σ t z u).doom = some b' → u = t ∧ b' = b := by
    intro u b' hu
    by_cases e : u = t
    · subst e; simp [z1] at hu; exact ⟨rfl, hu.symm⟩
    · simp [e, hd u e] at hu
  constructor
  · intro u nd hu; rw [b2] at hu; cases hu
  · intro u b' hu
    obtain ⟨-, rfl⟩ := b1 u b' hu
    exact ⟨⟨x, rfl⟩, rfl, rfl, rfl, rfl, e2, e3⟩
  · intro u v b' b'' hu hv; rw [(b1 _ _ hu).1, (b1 _ _ hv).1]
  · intro _ hu; have := hu t; simp [z1] at this
  · intro nd' hu; cases hu
  · intro u hu; rw [b3] at hu; cases hu
  · intro hu; have := (hu t).2; simp [z1] at this
  · rw [tot_zero b3]; exact hh

/-- The inode that was still there is removed. -/
theorem InoRel.reap (r : InoRel N σ ox oy fo fo' dk dk' h h') {b : Bool} (h0 : (σ t).doom = some b)
    (z1 : z.doom = none) (z2 : z.fresh = none) (z3 : z.opn = false) (z4 : z.cls = (σ t).cls) (ht : t < N)
    {dk1 : Option (List UInt8)} (e : dk1 = none) :
    InoRel N (upd σ t z) none oy fo fo' dk1 dk' h h' := by
  obtain ⟨-, rfl, rfl, rfl, rfl, -, -⟩ := r.doom _ _ h0
  subst e
  have b1 : ∀ u, (upd σ t z u).doom = none := by
    intro u
    by_cases e : u = t
    · subst e; simpa using z1
    · simp only [upd_ne _ _ e]
      cases hu : (σ u).doom with
      | none => rfl
      | some b' => exact absurd (r.doom1 _ _ _ _ hu h0) e
  have b2 : ∀ u, (upd σ t z u).fresh = none := by
    intro u
    by_cases e : u = t
    · subst e; simpa using z2
    · simp only [upd_ne _ _ e]
      cases hu : (σ u).fresh with
      | none => rfl
      | some b' => have := (r.fresh _ _ hu).2; cases this
  have b4 : ∀ u, (σ u).opn = false := by
    intro u
    cases hu : (σ u).opn with
    | false => rfl
    | true => obtain ⟨-, -, -, -, -, nd, h1, -⟩ := r.opn _ hu; cases h1
  have b3 : ∀ u, (upd σ t z u).opn = false := by
    intro u
    by_cases e : u = t
    · subst e; simpa using z3
    · simp only [upd_ne _ _ e]; exact b4 u
  have t1 := tot_upd ht σ z Sig.cls
  rw [z4] at t1
  have hh := r.held
  rw [tot_zero b4] at hh
  constructor
  · intro u nd hu; rw [b2] at hu; cases hu
  · intro u b' hu; rw [b1] at hu; cases hu
  · intro u v b' b'' hu; rw [b1] at hu; cases hu
  · intro _ _; rfl
  · intro nd' hu; cases hu
  · intro u hu; rw [b3] at hu; cases hu
  · intro _; exact ⟨rfl, rfl⟩
  · rw [tot_zero b3]; omega

/-- A new number. -/
theorem InoRel.birth (hq : ∀ u, (σ u).doom = none ∧ (σ u).opn = false ∧ (σ u).cls = false ∧ (σ u).fresh = none)
    (z0 : z.doom = none) (z1 : z.fresh = some y) (z2 : z.cls = false) (ht : t < N) 
    (hf : z.opn = true → fo = none ∧ dk = none ∧ fo' = some 0 ∧ dk' = some [] ∧ h' = 1 ∧ y.kind = .file ∧ y.link = 1)
    (hn : z.opn = false → fo = fo' ∧ dk = dk')
    (hh : h' = h + z.opn.toNat) : InoRel N (upd σ t z) none (some y) fo fo' dk dk' h h' := by
  have b1 : ∀ u, (upd σ t z u).doom = none := fun u => by by_cases e : u = t <;> simp_all
  have b2 : ∀ u nd, (upd σ t z u).fresh = some nd → nd = y := by
    intro u nd hu
    by_cases e : u = t
    · subst e; simp [z1] at hu; exact hu.symm
    · simp [e, hq] at hu
  have b3 : ∀ u, (upd σ t z u).opn = true → z.opn = true := by
    intro u hu
    by_cases e : u = t
    · subst e; simpa using hu
    · simp [e, hq] at hu
  have t1 := tot_upd ht σ z Sig.opn
  have t2 := tot_upd ht σ z Sig.cls
  rw [tot_zero (fun u => (hq u).2.1), (hq t).2.1] at t1
  rw [tot_zero (fun u => (hq u).2.2.1), (hq t).2.2.1, z2] at t2
  constructor
  · intro u nd hu; exact ⟨rfl, by rw [b2 u nd hu]⟩
  · intro u b' hu; rw [b1] at hu; cases hu
  · intro u v b' b'' hu; rw [b1] at hu; cases hu
  · intro hy _; cases hy
  · intro nd' hu hfr; have := hfr t; simp [z1] at this
  · intro u hu
    obtain ⟨a1, a2, a3, a4, a5, a6, a7⟩ := hf (b3 u hu)
    exact ⟨a1, a2, a3, a4, a5, y, rfl, a6, a7⟩
  · intro hu
    have := (hu t).1
    simp only [upd_same] at this
    exact hn this
  · rw [hh]; simp at t1 t2; omega

/-- The new inode is stored. -/
theorem InoRel.store (r : InoRel N σ ox oy fo fo' dk dk' h h') (hq : ∀ u, u ≠ t → σ u = {}) (h0 : (σ t).fresh = some x)
    (h1 : (σ t) = { z with fresh := some x }) (z1 : z.fresh = none) (z2 : z.add = none) (z3 : z.rm = none) (z4 : z.up = false)
    (hn : (x.ents.map Prod.fst).Nodup) : InoRel N (upd σ t z) (some x) oy fo fo' dk dk' h h' := by
  obtain ⟨rfl, rfl⟩ := r.fresh _ _ h0
  have hz : ∀ u, upd σ t z u = { σ u with fresh := none } := by
    intro u
    by_cases e : u = t
    · subst e; simp only [upd_same, h1]; cases z; simp_all
    · simp [e, hq u e]
  have ht0 : ∀ w : Sig → Bool, (∀ q, w q = w { q with fresh := none }) → tot N (upd σ t z) w = tot N σ w := by
    intro w hw
    refine sumTo_congr (fun u _ => ?_)
    rw [hz, ← hw]
  constructor
  · intro u nd hu; rw [hz] at hu; cases hu
  · intro u b' hu; rw [hz] at hu
    obtain ⟨-, h, -⟩ := r.doom u b' hu; cases h
  · intro u v b' b'' hu; rw [hz] at hu
    obtain ⟨-, h, -⟩ := r.doom u b' hu; cases h
  · intro hy; cases hy
  · intro nd' hu _; cases hu
    refine ⟨x, rfl, Same.refl hn (fun u => ?_)⟩
    by_cases e : u = t
    · subst e; simp [z2, z3, z4]
    · simp [e, hq u e]
  · intro u hu; rw [hz] at hu; exact r.opn u hu
  · intro hu
    refine r.data (fun u => ?_)
    have := hu u; rw [hz] at this; exact this
  · rw [ht0 _ (fun _ => rfl), ht0 _ (fun _ => rfl)]; exact r.held

/-- The host file and the descriptor of a new file are made. -/
theorem InoRel.opened (r : InoRel N σ ox oy fo fo' dk dk' h h') (h0 : (σ t).opn = true) (hf : ∀ u, (σ u).fresh = none)
    (z1 : z = { σ t with opn := false }) (ht : t < N) (hN : ∀ u, N ≤ u → σ u = {}) :
    InoRel N (upd σ t z) ox oy (some 0) fo' (some []) dk' (h + 1) h' := by
  obtain ⟨rfl, rfl, rfl, rfl, rfl, y, rfl, hk, hl⟩ := r.opn _ h0
  have t1 := tot_upd ht σ z Sig.opn
  have t2 := tot_upd ht σ z Sig.cls
  have e2 : z.cls = (σ t).cls := by rw [z1]
  have e1 : z.opn = false := by rw [z1]
  rw [e2] at t2
  rw [e1, h0] at t1
  have hh := r.held
  simp only [Bool.toNat_true, Bool.toNat_false] at t1
  have hz : tot N (upd σ t z) Sig.opn = 0 := by omega
  have hb1 : ∀ u, (upd σ t z u).doom = none := by
    intro u
    cases hu : (upd σ t z u).doom with
    | none => rfl
    | some b =>
      have : (σ u).doom = some b := by
        by_cases e : u = t
        · subst e; simpa [z1] using hu
        · simpa [e] using hu
      obtain ⟨-, h, -⟩ := r.doom _ _ this; cases h
  have hfr : ∀ u, (upd σ t z u).fresh = none := by
    intro u
    by_cases e : u = t
    · subst e; simp [z1, hf]
    · simp [e, hf]
  have hopn : ∀ u, (upd σ t z u).opn = false := by
    intro u
    by_cases e : u = t
    · subst e; simpa using e1
    · cases hu : (upd σ t z u).opn with
      | false => rfl
      | true =>
        simp only [upd_ne _ _ e] at hu
        exfalso
        by_cases hu' : u < N
        · have h3 := sumTo_le (f := fun u => (Sig.opn (upd σ t z u)).toNat) hu'
          have h4 : sumTo (fun u => (Sig.opn (upd σ t z u)).toNat) N = 0 := hz
          rw [h4] at h3
          simp [e, hu] at h3
        · rw [hN u (by omega)] at hu; cases hu
  obtain ⟨x, rfl, hs⟩ := r.there _ rfl hf
  have hs' : Same N (upd σ t z) x y := hs.sig (by rw [z1]) (by rw [z1]) (by rw [z1]) ht
  constructor
  · intro u nd hu; rw [hfr] at hu; cases hu
  · intro u b' hu; rw [hb1] at hu; cases hu
  · intro u v b' b'' hu; rw [hb1] at hu; cases hu
  · intro hy; cases hy
  · intro nd' hu _; cases hu; exact ⟨x, rfl, hs'⟩
  · intro u hu; rw [hopn] at hu; cases hu
  · intro _; exact ⟨rfl, rfl⟩
  · omega

end Verif.NameConc
