import Verif.FsCmdProps

/-! # `rmdir` with a list of words (property C109) -/

namespace Verif.FsCmd
open Verif.Path Verif.Fs Verif.Kernel Verif.FsTools Verif.HostCopy

/-! ## Specification -/

/-- The word names a directory that nothing lies beneath but what the words in `l` name, in a writable directory, and no word in `l` names it.  The mode word
of the directory carries the directory type. -/
def Removable (cg : Cage) (s : State) (l : List Str) (p : Str) : Prop :=
  p ≠ [] ∧ (∀ p' ∈ l, cg.path p' ≠ cg.path p) ∧
  (∃ ns n d pd, cg.path p = ns ++ [n] ∧ Walk s.fs.inodes rootIno ns d ∧ s.fs.inodes d = some pd ∧ pd.mode &&& 0o222#32 ≠ 0#32) ∧
  (∃ i nd, Leads s cg p i ∧ s.fs.inodes i = some nd ∧ nd.kind = .dir ∧ nd.mode &&& 0o170000#32 = 0o40000#32) ∧
  ∀ q k, Plainly q → q ≠ [] → Walk s.fs.inodes rootIno (cg.path p ++ q) k → ∃ p' ∈ l, cg.path p' = cg.path p ++ q

/-! ## Lemmas -/

theorem rmdir_lost {s : State} (hR : Reach s) {c : Nat} {cg : Cage} (hc : s.cages c = some cg) {p : Str} (h : Removable cg s [] p) :
    ∃ s', rmdirOne c s p = .done s' ∧ Reach s' ∧ s'.cages = s.cages ∧ Lost (fun q _ => q = cg.path p) s s' := by
  obtain ⟨hp, -, ⟨ns, n, d, pd, hP, wd, hpd, hw⟩, ⟨i, nd, hi, hnd, hd, hty⟩, hbelow⟩ := h
  have T := hR.inv.fs.tree
  have gP := path_plain hR hc p
  have he : Empty s i := by
    intro m j hm
    cases hb : isDots m with
    | true => rfl
    | false =>
      have w : Walk s.fs.inodes rootIno (cg.path p ++ [m]) j := Walk.snoc hi hnd (isDir_iff.2 hd) ((entry_iff hnd).1 hm)
      obtain ⟨p', hp', -⟩ := hbelow [m] j (fun x hx => by rw [List.mem_singleton.1 hx]; exact hb) (by simp) w
      cases hp'
  obtain ⟨s', h1, h2, h3, h4, pd', h5, h6, h7⟩ := rmdir_took hR hc hp hP wd hpd hw hi hnd hd he hty
  have hA : ∀ q k, Plainly q → Walk s.fs.inodes rootIno q k → (cg.path p <+: q ↔ q = cg.path p) := by
    intro q k hq w
    constructor
    · rintro ⟨t, rfl⟩
      by_cases ht : t = []
      · simp [ht]
      · obtain ⟨p', hp', -⟩ := hbelow t k (fun m hm => hq m (by simp [hm])) ht w
        cases hp'
    · rintro rfl; exact List.prefix_rfl
  refine ⟨s', h1, h2, h3, ?_, ?_, ?_⟩
  · intro q k hq
    rw [h4.paths q k ((plainly_iff q).1 hq)]
    exact ⟨fun ⟨a, b⟩ => ⟨a, fun x => b ((hA q k hq a).2 x)⟩, fun ⟨a, b⟩ => ⟨a, fun x => b ((hA q k hq a).1 x)⟩⟩
  · intro q k kd hq w hk hkd
    obtain ⟨w0, hn⟩ := (h4.paths q k ((plainly_iff q).1 hq)).1 w
    by_cases e1 : q = ns
    · subst e1
      have := walk_fun T w0 wd; subst this
      rw [hpd] at hk; cases hk
      exact ⟨pd', h5, h6, h7⟩
    · exact ⟨kd, h4.dirs q k kd ((plainly_iff q).1 hq) hn e1 w0 hk (isDir_iff.2 hkd), hkd, rfl⟩
  · intro k kd hk hkd hx
    have hkd' : kd.isDir = false := not_dir hk (by rintro ⟨x, a, b⟩; rw [hk] at a; cases a; exact hkd b)
    obtain ⟨l, a, b⟩ := h4.files k kd hk hkd' (hx.imp id fun ⟨q, hq, w⟩ =>
      ⟨q, (plainly_iff q).1 hq, ((h4.paths q k ((plainly_iff q).1 hq)).1 w).2, ((h4.paths q k ((plainly_iff q).1 hq)).1 w).1⟩)
    exact ⟨l, a, by simp only [bytes, b]⟩

/-! ## Theorems -/

/-- C109.  `rmdir` with any list of words, each of which names a directory that is empty by the time its turn comes: it returns, exactly the paths given are
gone, whatever the permissions of the directories were, and nothing else changed.  Partial: the holders must be writable, and the mode words must carry the
directory type (C15, `rmdir_type_bits_violated`); a word that names something else is left open to everybody (`rmdir_failed_violated`). -/
theorem rmdir_exact_partial {c : Nat} {cg : Cage} : ∀ {ps : List Str} {s : State} (_ : Reach s) (_ : s.cages c = some cg)
    (_ : ∀ l p r, ps = l ++ p :: r → Removable cg s l p),
    ∃ s', rmdir c ps s = .done s' ∧ Reach s' ∧ s'.cages = s.cages ∧ Lost (fun q _ => ∃ p ∈ ps, cg.path p = q) s s' := by
  intro ps
  induction ps with
  | nil => intro s hR _ _; exact ⟨s, rfl, hR, rfl, .refl s (by rintro q k - - ⟨p, hp, -⟩; cases hp)⟩
  | cons p ps ih =>
    intro s hR hc hall
    have h0 := hall [] p ps rfl
    obtain ⟨s1, a1, a2, a3, a4⟩ := rmdir_lost hR hc h0
    have hc1 : s1.cages c = some cg := by rw [a3, hc]
    have hall1 : ∀ l p' r, ps = l ++ p' :: r → Removable cg s1 l p' := by
      intro l p' r e
      obtain ⟨hp, hdist, ⟨ns, n, d, pd, hP, wd, hpd, hw⟩, ⟨i, nd, hi, hnd, hd, hty⟩, hbelow⟩ := hall (p :: l) p' r (by rw [e]; rfl)
      have gP := path_plain hR hc p'
      have gns : Plainly ns := fun m hm => gP m (by rw [hP]; simp [hm])
      have hi' : Walk s.fs.inodes rootIno (ns ++ [n]) i := by rw [← hP]; exact hi
      have hpk : pd.kind = .dir := by
        obtain ⟨d', pd', w', hpd', hk', -⟩ := hi'.split
        have := walk_fun hR.inv.fs.tree w' wd; subst this
        rw [hpd] at hpd'; cases hpd'; exact isDir_iff.1 hk'
      have wd1 : Walk s1.fs.inodes rootIno ns d := (a4.paths ns d gns).2 ⟨wd, fun e' => by
        obtain ⟨x, hx, -⟩ := h0.2.2.2.2 [n] i (fun m hm => gP m (by rw [hP]; simp at hm ⊢; exact .inr hm)) (by simp) (by rw [← e']; exact hi')
        cases hx⟩
      have wi1 : Walk s1.fs.inodes rootIno (cg.path p') i := (a4.paths _ i gP).2 ⟨hi, fun e' => hdist p (by simp) e'.symm⟩
      obtain ⟨pd1, b1, -, b3⟩ := a4.dirs ns d pd gns wd1 hpd hpk
      obtain ⟨nd1, c1, c2, c3⟩ := a4.dirs _ i nd gP wi1 hnd hd
      refine ⟨hp, fun x hx => hdist x (by simp [hx]), ⟨ns, n, d, pd1, hP, wd1, b1, by rw [b3]; exact hw⟩,
        ⟨i, nd1, wi1, c1, c2, by rw [c3]; exact hty⟩, ?_⟩
      intro q k hq hne w
      have gq : Plainly (cg.path p' ++ q) := fun m hm => (List.mem_append.1 hm).elim (gP m) (hq m)
      obtain ⟨w0, hn⟩ := (a4.paths _ k gq).1 w
      obtain ⟨x, hx, ex⟩ := hbelow q k hq hne w0
      rcases List.mem_cons.1 hx with rfl | hx
      · exact absurd ex.symm hn
      · exact ⟨x, hx, ex⟩
    obtain ⟨s2, b1, b2, b3, b4⟩ := ih a2 hc1 hall1
    refine ⟨s2, ?_, b2, b3.trans a3, a4.trans b4 ?_⟩
    · simp only [rmdir, forEach, a1]; exact b1
    · intro q k hq w
      constructor
      · rintro ⟨x, hx, e⟩
        by_cases hg : q = cg.path p
        · exact .inl hg
        · refine .inr ⟨(a4.paths q k hq).2 ⟨w, hg⟩, ?_⟩
          rcases List.mem_cons.1 hx with rfl | hx
          · exact absurd e.symm hg
          · exact ⟨x, hx, e⟩
      · rintro (rfl | ⟨-, x, hx, e⟩)
        · exact ⟨p, by simp, rfl⟩
        · exact ⟨x, by simp [hx], e⟩

/-! ## Cases -/

/-- `/a`, in it `/a/b`, which its owner alone may use, and the file `/g`. -/
def nest : State := run init [(0, .mkdir pA 0o755#32), (0, .mkdir pAB 0o700#32), (0, .openP pG 0o101#32 0o600#32), (0, .close 3)]

theorem nest_reach : Reach nest := Reach.init.run _ (by decide +kernel)

theorem nest_shape : ∃ cg rd ad bd, nest.cages 0 = some cg ∧ cg.path pA = [] ++ [[97]] ∧ cg.path pAB = [[97]] ++ [[98]] ∧
    nest.fs.inodes rootIno = some rd ∧ rd.mode &&& 0o222#32 ≠ 0#32 ∧ rd.isDir ∧ ([97], 9) ∈ rd.ents ∧ ([103], 11) ∈ rd.ents ∧
    nest.fs.inodes 9 = some ad ∧ ad.mode &&& 0o222#32 ≠ 0#32 ∧ ad.kind = .dir ∧ ad.ents = [([98], 10), ([46], 9), ([46, 46], 1)] ∧
    ad.mode &&& 0o170000#32 = 0o40000#32 ∧
    nest.fs.inodes 10 = some bd ∧ bd.kind = .dir ∧ bd.ents = [([46], 10), ([46, 46], 9)] ∧ bd.mode &&& 0o170000#32 = 0o40000#32 := by
  refine ⟨_, _, _, _, rfl, ?_, ?_, rfl, ?_, ?_, ?_, ?_, rfl, ?_, ?_, ?_, ?_, rfl, ?_, ?_, ?_⟩ <;> decide +kernel

/-- The hypotheses of `rmdir_exact_partial` hold of `rmdir /a/b /a`: both go, the inner one first, and `/g` stays. -/
example : ∃ cg s', nest.cages 0 = some cg ∧ rmdir 0 [pAB, pA] nest = .done s' ∧ (∀ k, ¬ Walk s'.fs.inodes rootIno [[97], [98]] k) ∧
    (∀ k, ¬ Walk s'.fs.inodes rootIno [[97]] k) ∧ Walk s'.fs.inodes rootIno [[103]] 11 := by
  obtain ⟨cg, rd, ad, bd, hc, e1, e2, hr, hrw, hrk, ha, hg, had, haw, hak, hae, ham, hbd, hbk, hbe, hbm⟩ := nest_shape
  have T := nest_reach.inv.fs.tree
  have hak' := isDir_iff.2 hak
  have wa : Walk nest.fs.inodes rootIno [[97]] 9 := .down hr hrk ha (.here _)
  have wb : Walk nest.fs.inodes rootIno [[97], [98]] 10 := .down hr hrk ha (.down had hak' (by rw [hae]; simp) (.here _))
  have below : ∀ {q k}, Plainly q → q ≠ [] → ¬ Walk nest.fs.inodes 10 q k := by
    intro q k hq hne w
    cases w with
    | here => exact hne rfl
    | down a b c d =>
      rw [hbd] at a; cases a
      rw [hbe] at c
      have := hq _ (List.mem_cons_self ..)
      simp only [List.mem_cons, List.not_mem_nil, or_false, Prod.mk.injEq] at c
      rcases c with ⟨rfl, -⟩ | ⟨rfl, -⟩ <;> revert this <;> decide
  have hall : ∀ l p r, [pAB, pA] = l ++ p :: r → Removable cg nest l p := by
    intro l p r e
    rcases l with _ | ⟨x, _ | ⟨y, l⟩⟩
    · simp only [List.nil_append, List.cons.injEq] at e
      obtain ⟨rfl, -⟩ := e
      refine ⟨by decide, nofun, ⟨_, _, 9, ad, e2, wa, had, haw⟩, ⟨10, bd, by unfold Leads; rw [e2]; exact wb, hbd, hbk, hbm⟩, ?_⟩
      intro q k hq hne w
      rw [e2] at w
      obtain ⟨x, w1, w2⟩ := Walk_cut _ w
      have := walk_fun T w1 wb; subst this
      exact absurd w2 (below hq hne)
    · simp only [List.cons_append, List.nil_append, List.cons.injEq] at e
      obtain ⟨rfl, rfl, -⟩ := e
      refine ⟨by decide, ?_, ⟨_, _, rootIno, rd, e1, .here _, hr, hrw⟩, ⟨9, ad, by unfold Leads; rw [e1]; exact wa, had, hak, ham⟩, ?_⟩
      · intro x hx
        rw [List.mem_singleton.1 hx, e1, e2]; decide
      · intro q k hq hne w
        rw [e1] at w
        obtain ⟨x, w1, w2⟩ := Walk_cut _ w
        have := walk_fun T w1 wa; subst this
        cases w2 with
        | here => exact absurd rfl hne
        | @down _ nd m j q' _ a b c w3 =>
          rw [had] at a; cases a
          rw [hae] at c
          have hm := hq _ (List.mem_cons_self ..)
          simp only [List.mem_cons, List.not_mem_nil, or_false, Prod.mk.injEq] at c
          rcases c with ⟨rfl, rfl⟩ | ⟨rfl, -⟩ | ⟨rfl, -⟩
          · by_cases hq' : q' = []
            · subst hq'; exact ⟨pAB, by simp, by rw [e1, e2]; rfl⟩
            · exact absurd w3 (below (fun m hm => hq m (by simp [hm])) hq')
          · exact absurd hm (by decide)
          · exact absurd hm (by decide)
    · simp only [List.cons_append, List.cons.injEq] at e
      have := congrArg List.length e.2.2
      simp at this
  obtain ⟨s', h1, -, -, h4⟩ := rmdir_exact_partial nest_reach hc hall
  have pl : ∀ {q : List Name}, (∀ m ∈ q, Proper m) → Plainly q := fun h => (plainly_iff _).2 h
  refine ⟨cg, s', hc, h1, fun k w => ?_, fun k w => ?_, ?_⟩
  · exact ((h4.paths _ k (pl (by decide))).1 w).2 ⟨pAB, by simp, by rw [e2]; rfl⟩
  · exact ((h4.paths _ k (pl (by decide))).1 w).2 ⟨pA, by simp, by rw [e1]; rfl⟩
  · refine (h4.paths _ _ (pl (by decide))).2 ⟨.down hr hrk hg (.here _), ?_⟩
    rintro ⟨p, hp, e⟩
    simp only [List.mem_cons, List.not_mem_nil, or_false] at hp
    rcases hp with rfl | rfl
    · rw [e2] at e; revert e; decide
    · rw [e1] at e; revert e; decide

end Verif.FsCmd
