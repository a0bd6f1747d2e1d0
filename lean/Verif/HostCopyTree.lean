import Verif.HostCopyProps

/-!
# Copying whole trees of the host: C75
-/

namespace Verif.HostCopy

open Verif.Path Verif.Fs Verif.Kernel Verif.FsTools

set_option linter.unusedSimpArgs false

/-! ## Lemmas -/

theorem prefix_common {q P a b : List Name} {n m : Name} (hnm : n ≠ m) (h1 : q <+: P ++ n :: a) (h2 : q <+: P ++ m :: b) : q <+: P := by
  rcases Nat.lt_or_ge P.length q.length with g | g
  · exfalso
    obtain ⟨x, hx⟩ := h1
    obtain ⟨y, hy⟩ := h2
    have e1 := congrArg (fun l => l[P.length]?) hx
    have e2 := congrArg (fun l => l[P.length]?) hy
    simp only [List.getElem?_append_left g, List.getElem?_append_right (Nat.le_refl _), Nat.sub_self, List.getElem?_cons_zero] at e1 e2
    rw [e1] at e2
    exact hnm (by simpa using e2)
  · exact List.prefix_of_prefix_length_le h1 ⟨_, rfl⟩ g

/-- Copies whose names part at `n` and at names other than `n` do not disturb each other. -/
theorem placed_trans {P : List Name} {n : Name} {fs gs : List (List Name × List UInt8)} {s s1 s2 : State}
    (hgood : ∀ f ∈ fs.map (fun f => (n :: f.1, f.2)) ++ gs, ∀ m ∈ P ++ f.1, Good m)
    (hgs : ∀ g ∈ gs, ∃ m t, g.1 = m :: t ∧ n ≠ m)
    (h1 : Placed (P ++ [n]) fs s s1) (h2 : Placed P gs s1 s2) :
    Placed P (fs.map (fun f => (n :: f.1, f.2)) ++ gs) s s2 := by
  have hmem : ∀ f ∈ fs, (n :: f.1, f.2) ∈ fs.map (fun f => (n :: f.1, f.2)) ++ gs := fun f hf =>
    List.mem_append_left _ (List.mem_map.2 ⟨f, hf, rfl⟩)
  have happ : ∀ t : List Name, P ++ [n] ++ t = P ++ n :: t := fun t => by simp
  refine ⟨h2.reach, h2.cages.trans h1.cages, ?_, ?_, ?_⟩
  · intro f hf
    rcases List.mem_append.1 hf with hf | hf
    · obtain ⟨f0, hf0, rfl⟩ := List.mem_map.1 hf
      obtain ⟨i, w, ⟨nd, i1, i2, i3⟩, hb, hn⟩ := h1.files f0 hf0
      obtain ⟨g1, g2⟩ := h2.grown.node i nd i1 (by simp only [Inode.isDir, i2]) (by simp)
      exact ⟨i, by rw [← happ]; exact h2.grown.keeps _ _ w, ⟨nd, g1, i2, i3⟩, g2.trans hb, hn⟩
    · obtain ⟨i, w, hfi, hb, hn⟩ := h2.files f hf
      refine ⟨i, w, hfi, hb, ?_⟩
      cases hs : s.fs.inodes i with
      | none => rfl
      | some nd =>
        cases hd : nd.isDir with
        | true => obtain ⟨x, hx, -⟩ := h1.grown.dir i nd hs hd; rw [hn] at hx; cases hx
        | false => have := (h1.grown.node i nd hs hd (by simp)).1; rw [hn] at this; cases this
  · intro f hf
    rcases List.mem_append.1 hf with hf' | hf'
    · obtain ⟨f0, hf0, rfl⟩ := List.mem_map.1 hf'
      intro q hq d w
      rcases h2.grown.fresh q d (above_proper hq (hgood _ hf)) w with g | ⟨g0, hg0, hpre⟩
      · obtain ⟨x, x1, x2, x3⟩ := h1.clear f0 hf0 q (by rw [happ]; exact hq) d g
        obtain ⟨y, y1, y2, y3⟩ := h2.grown.dir d x x1 x2
        exact ⟨y, y1, y2, y3 ▸ x3⟩
      · obtain ⟨m, t, e, hnm⟩ := hgs g0 hg0
        rw [e] at hpre
        obtain ⟨z, rfl⟩ := prefix_common hnm (above_prefix hq) hpre
        refine h2.clear g0 hg0 q ?_ d w
        rw [e]
        cases z with
        | nil => exact ⟨m, t, by simp⟩
        | cons a z => exact ⟨a, z ++ m :: t, by simp⟩
    · exact h2.clear f hf'
  · refine Grown.trans (h1.grown.mono ?_ (fun _ g => g)) (h2.grown.mono ?_ (fun _ g => g))
    · rintro q ⟨f, hf, hq⟩
      exact ⟨_, hmem f hf, by rw [← happ]; exact hq⟩
    · rintro q ⟨f, hf, hq⟩
      exact ⟨f, List.mem_append_right _ hf, hq⟩

/-- What is left to copy still has room. -/
theorem room_trans {P : List Name} {n : Name} {fs gs : List (List Name × List UInt8)} {s s1 : State}
    (hgood : ∀ g ∈ gs, ∀ m ∈ P ++ g.1, Good m) (hgs : ∀ g ∈ gs, ∃ m t, g.1 = m :: t ∧ n ≠ m)
    (h1 : Placed (P ++ [n]) fs s s1) (hr : Room s P gs) : Room s1 P gs := by
  have happ : ∀ t : List Name, P ++ [n] ++ t = P ++ n :: t := fun t => by simp
  intro g hg
  obtain ⟨r1, r2, r3⟩ := hr g hg
  obtain ⟨m, t, e, hnm⟩ := hgs g hg
  refine ⟨r1, ?_, ?_⟩
  · intro q hq d w
    rcases h1.grown.fresh q d (above_proper hq (hgood g hg)) w with k | ⟨f0, hf0, hpre⟩
    · obtain ⟨x, x1, x2, x3⟩ := r2 q hq d k
      obtain ⟨y, y1, y2, y3⟩ := h1.grown.dir d x x1 x2
      exact ⟨y, y1, y2, y3 ▸ x3⟩
    · have hq' := above_prefix hq
      rw [e] at hq'
      rw [happ] at hpre
      obtain ⟨z, rfl⟩ := prefix_common hnm hpre hq'
      refine h1.clear f0 hf0 q ?_ d w
      cases z with
      | nil => exact ⟨n, f0.1, by simp⟩
      | cons a z => exact ⟨a, z ++ n :: f0.1, by simp⟩
  · intro i w
    rcases h1.grown.fresh _ i (fun m hm => Good.proper (hgood g hg m hm)) w with k | ⟨f0, hf0, hpre⟩
    · exact r3 i k
    · rw [happ] at hpre
      have := prefix_common hnm hpre (by rw [e]; exact List.prefix_refl _)
      have := this.length_le
      rw [e] at this
      simp only [List.length_append, List.length_cons] at this
      omega

theorem files_names : ∀ (ch : Children), ∀ f ∈ ch.files, ∃ m t, f.1 = m :: t ∧ m ∈ ch.names
  | .nil => by intro f hf; simp [Children.files] at hf
  | .cons n h rest => by
    intro f hf
    rw [Children.files] at hf
    rcases List.mem_append.1 hf with hf | hf
    · obtain ⟨f0, -, rfl⟩ := List.mem_map.1 hf
      exact ⟨n, f0.1, rfl, by simp [Children.names]⟩
    · obtain ⟨m, t, e, hm⟩ := files_names rest f hf
      exact ⟨m, t, e, by simp [Children.names, hm]⟩

mutual
theorem files_good : ∀ (t : Host), t.Ok → ∀ f ∈ t.files, ∀ m ∈ f.1, Good m
  | .file content => by intro _ f hf; simp only [Host.files, List.mem_singleton] at hf; subst hf; simp
  | .dir ch => by intro h f hf; rw [Host.Ok] at h; rw [Host.files] at hf; exact children_good ch h f hf
  | .special => by intro _ f hf; simp [Host.files] at hf
  | .dangling => by intro _ f hf; simp [Host.files] at hf
theorem children_good : ∀ (ch : Children), ch.Ok → ∀ f ∈ ch.files, ∀ m ∈ f.1, Good m
  | .nil => by intro _ f hf; simp [Children.files] at hf
  | .cons n h rest => by
    intro hok f hf
    rw [Children.Ok] at hok
    obtain ⟨o1, -, o3, o4⟩ := hok
    rw [Children.files] at hf
    rcases List.mem_append.1 hf with hf | hf
    · obtain ⟨f0, h0, rfl⟩ := List.mem_map.1 hf
      intro m hm
      rcases List.mem_cons.1 hm with rfl | hm
      · exact o1
      · exact files_good h o3 f0 h0 m hm
    · exact children_good rest o4 f hf
end

theorem placed_nil {P : List Name} {s : State} (h : Reach s) : Placed P [] s s :=
  ⟨h, rfl, by simp, by simp, .refl _ _ _⟩

mutual
theorem cpTree_run {c : Nat} {cg : Cage} : ∀ (t : Host), t.Ok → ∀ (p : Str) (s : State), p ≠ [] → Reach s → s.cages c = some cg →
    (∃ fd, fd < 1024 ∧ cg.fds fd = none) → Room s (cg.path p) t.files →
    ∃ s', cpTree c true t p s = .done s' ∧ Placed (cg.path p) t.files s s'
  | .file content => by
    intro _ p s hp h hc hfd hr
    rw [Host.files] at hr ⊢
    obtain ⟨r1, r2, r3⟩ := hr _ (List.mem_singleton.2 rfl)
    simp only [List.append_nil] at r1 r2 r3
    obtain ⟨s', i, nd, k1, k2, k3, k4, k5, k6, k7, k8, k9, k10, k11, k12, -⟩ := copy_file h hc (create := true) content r1 r2 (.inl rfl)
      (fun i hi => absurd hi (r3 i)) hfd
    have hnew : s.fs.inodes i = none := by
      cases hs : s.fs.inodes i with
      | none => rfl
      | some od => exact absurd (k11 od hs).1 (r3 i)
    refine ⟨s', by rw [cpTree, k1]; rfl, k2, k3, ?_, ?_, ?_⟩
    · intro f hf
      rw [List.mem_singleton] at hf; subst hf
      exact ⟨i, by simpa [Leads] using k4, ⟨nd, k5, k6, k7⟩, k8, hnew⟩
    · intro f hf
      rw [List.mem_singleton] at hf; subst hf
      simpa using k9
    · refine ⟨k10.keeps, ?_, ?_, k10.dir⟩
      · intro q k hq w
        refine (k10.fresh q k hq w).imp id (fun g => ⟨_, List.mem_singleton.2 rfl, by simpa using g⟩)
      · intro j jd hj hd _
        refine k10.node j jd hj hd ?_
        rintro rfl; rw [hnew] at hj; cases hj
  | .dir ch => by
    intro hok p s hp h hc hfd hr
    rw [Host.Ok] at hok
    rw [Host.files] at hr ⊢
    rw [cpTree]
    exact cpChildren_run ch hok p s hp h hc hfd hr
  | .special => by
    intro _ p s _ h _ _ _
    rw [Host.files, cpTree]; exact ⟨s, rfl, placed_nil h⟩
  | .dangling => by
    intro _ p s _ h _ _ _
    rw [Host.files, cpTree]; exact ⟨s, rfl, placed_nil h⟩
theorem cpChildren_run {c : Nat} {cg : Cage} : ∀ (ch : Children), ch.Ok → ∀ (p : Str) (s : State), p ≠ [] → Reach s →
    s.cages c = some cg → (∃ fd, fd < 1024 ∧ cg.fds fd = none) → Room s (cg.path p) ch.files →
    ∃ s', cpChildren c true ch p s = .done s' ∧ Placed (cg.path p) ch.files s s'
  | .nil => by
    intro _ p s _ h _ _ _
    rw [Children.files, cpChildren]; exact ⟨s, rfl, placed_nil h⟩
  | .cons n t rest => by
    intro hok p s hp h hc hfd hr
    have hgood := children_good _ hok
    rw [Children.Ok] at hok
    obtain ⟨o1, o2, o3, o4⟩ := hok
    have hcw := (h.inv.cage c cg hc).2.2
    have gP := (normpath_path hcw p).2
    obtain ⟨e1, e2⟩ := child_path hcw hp o1
    rw [Children.files] at hr hgood ⊢
    rw [cpChildren]
    have hg2 : ∀ f ∈ t.files.map (fun f => (n :: f.1, f.2)) ++ rest.files, ∀ m ∈ cg.path p ++ f.1, Good m := by
      intro f hf m hm
      rcases List.mem_append.1 hm with g | g
      · exact gP m g
      · exact hgood f hf m g
    have hdis : ∀ g ∈ rest.files, ∃ m z, g.1 = m :: z ∧ n ≠ m := by
      intro g hg
      obtain ⟨m, z, e, hm⟩ := files_names rest g hg
      exact ⟨m, z, e, by rintro rfl; exact o2 hm⟩
    obtain ⟨s1, k1, k2⟩ := cpTree_run t o3 (child p n) s e2 h hc hfd (by
      intro f hf
      rw [e1]
      have := hr (n :: f.1, f.2) (List.mem_append_left _ (List.mem_map.2 ⟨f, hf, rfl⟩))
      simpa using this)
    rw [e1] at k2
    have hc1 : s1.cages c = some cg := by rw [k2.cages]; exact hc
    obtain ⟨s2, j1, j2⟩ := cpChildren_run rest o4 p s1 hp k2.reach hc1 hfd
      (room_trans (fun g hg => hg2 g (List.mem_append_right _ hg)) hdis k2 (fun g hg => hr g (List.mem_append_right _ hg)))
    refine ⟨s2, by rw [k1]; exact j1, placed_trans hg2 hdis k2 j2⟩
end

/-! ## C75 -/

/-- C75.  A tree of host files copied to a place where nothing is in the way: every regular file of it is there, under its path, new and
with its content; the only other new paths are the directories on the way to these files; nothing else is changed, and no descriptor is
left open. -/
theorem copy_tree {s : State} (h : Reach s) {c : Nat} {cg : Cage} (hc : s.cages c = some cg) {p : Str} (hp : p ≠ []) {t : Host}
    (ht : t.Ok) (hfd : ∃ fd, fd < 1024 ∧ cg.fds fd = none) (hr : Room s (cg.path p) t.files) :
    ∃ s', cpTree c true t p s = .done s' ∧ Placed (cg.path p) t.files s s' :=
  cpTree_run t ht p s hp h hc hfd hr

end Verif.HostCopy
