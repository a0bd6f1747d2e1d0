import Verif.FsToolsCalls

/-! # What `visit_children` and `lind_deltree` do, by induction on the depth of the tree -/

namespace Verif.FsTools

open Verif.Path Verif.Fs Verif.Kernel

/-- The subtree at `P` is one the tools can handle with `h` free descriptors: the type bits of every mode tell the truth, every
directory can be read into one buffer of 65536 bytes, and no chain of directories is longer than `h`. -/
structure Plain (s : State) (P : List Name) (h : Nat) : Prop where
  kind : ∀ q k nd, (∀ m ∈ q, Proper m) → P <+: q → Walk s.fs.inodes rootIno q k → s.fs.inodes k = some nd →
    modeIsDir nd.mode = nd.isDir
  dirs : ∀ q k nd, (∀ m ∈ q, Proper m) → P <+: q → Walk s.fs.inodes rootIno q k → s.fs.inodes k = some nd → nd.isDir →
    Getdents.Sane nd.ents ∧ (nd.ents.map (fun e => Getdents.recLen e.1)).sum ≤ 65536 ∧ q.length < P.length + h

theorem Plain.child {s : State} {P : List Name} {h : Nat} (p : Plain s P (h + 1)) (n : Name) : Plain s (P ++ [n]) h where
  kind q k nd gq hp w hk := p.kind q k nd gq ((List.prefix_append _ _).trans hp) w hk
  dirs q k nd gq hp w hk hd := by
    obtain ⟨a, b, c⟩ := p.dirs q k nd gq ((List.prefix_append _ _).trans hp) w hk hd
    exact ⟨a, b, by simp only [List.length_append, List.length_cons, List.length_nil]; omega⟩

theorem root_exists {s : State} (h : Reach s) : ∃ nd, s.fs.inodes rootIno = some nd := by
  obtain ⟨nd, h1, -⟩ := h.inv.fs.tree.root; exact ⟨nd, h1⟩

/-- A cut elsewhere keeps a subtree as it is. -/
theorem Plain.keep {A B : List Name → Prop} {s s' : State} (hR : Reach s) (c : Cut A B s s') {P : List Name} {h : Nat}
    (hB : ∀ q, P <+: q → ¬ B q) (p : Plain s P h) : Plain s' P h := by
  have key : ∀ q k nd', (∀ m ∈ q, Proper m) → P <+: q → Walk s'.fs.inodes rootIno q k → s'.fs.inodes k = some nd' →
      Walk s.fs.inodes rootIno q k ∧ ∃ nd, s.fs.inodes k = some nd ∧ nd'.mode = nd.mode ∧ nd'.isDir = nd.isDir ∧
        (nd.isDir → nd' = nd) := by
    intro q k nd' gq hp w hk
    obtain ⟨w0, hA⟩ := (c.paths q k gq).1 w
    obtain ⟨nd, hnd⟩ := Walk.exists hR.inv.fs.tree w0 gq (root_exists hR)
    refine ⟨w0, nd, hnd, ?_⟩
    cases hd : nd.isDir with
    | true =>
      have := c.dirs q k nd gq hA (hB q hp) w0 hnd hd
      rw [this] at hk; cases hk
      exact ⟨rfl, hd, fun _ => rfl⟩
    | false =>
      obtain ⟨l, h1, -⟩ := c.files k nd hnd hd (.inr ⟨q, gq, hA, w0⟩)
      rw [h1] at hk; cases hk
      exact ⟨rfl, by rw [← hd]; rfl, fun x => by cases x⟩
  constructor
  · intro q k nd gq hp w hk
    obtain ⟨w0, nd0, h0, e1, e2, -⟩ := key q k nd gq hp w hk
    rw [e1, e2]; exact p.kind q k nd0 gq hp w0 h0
  · intro q k nd gq hp w hk hd
    obtain ⟨w0, nd0, h0, e1, e2, e3⟩ := key q k nd gq hp w hk
    rw [e2] at hd
    rw [e3 hd]; exact p.dirs q k nd0 gq hp w0 h0 hd

/-! ## The children -/

/-- The visitor removes the child it is given. -/
def Removes (f : State → Str → Bool → Run) (c : Nat) (path : Str) (P : List Name) (i h : Nat) (cwd : Str) : Prop :=
  ∀ (s : State) (cg : Cage) (n : Name) (k : Nat) (nd kd : Inode), Reach s → s.cages c = some cg → cg.cwd = cwd → h ≤ free cg.fds →
    Walk s.fs.inodes rootIno P i → s.fs.inodes i = some nd → nd.isDir → nd.mode &&& sIWALL ≠ 0 →
    (n, k) ∈ nd.ents → Proper n → s.fs.inodes k = some kd → Plain s (P ++ [n]) h →
    ∃ s', f s (child path n) kd.isDir = .done s' ∧ Took c P n i nd s s'

theorem not_prefix_snoc {α : Type} (P : List α) (n : α) : ¬ P ++ [n] <+: P := by
  intro h; have := h.length_le; simp only [List.length_append, List.length_cons, List.length_nil] at this; omega

theorem visitNames_spec {f : State → Str → Bool → Run} {c : Nat} {path : Str} {P : List Name} {i h : Nat} {cg : Cage}
    (hf : Removes f c path P i h cg.cwd) (hpath : path ≠ []) (hP : cg.path path = P) (hfree : h ≤ free cg.fds) :
    ∀ (L : List Name) (s : State) (nd : Inode), Reach s → s.cages c = some cg → Walk s.fs.inodes rootIno P i →
      s.fs.inodes i = some nd → nd.isDir → nd.mode &&& sIWALL ≠ 0 → L.Nodup →
      (∀ n ∈ L, Proper n → (∃ k, (n, k) ∈ nd.ents) ∧ Plain s (P ++ [n]) h) →
      ∃ s' nd', visitNames f c path L s = .done s' ∧ s'.cages = s.cages ∧ Reach s' ∧
        Cut (fun q => ∃ n ∈ L, Proper n ∧ P ++ [n] <+: q) (fun q => q = P) s s' ∧ s'.fs.inodes i = some nd' ∧
        nd' = { nd with ents := nd'.ents, link := nd'.link } ∧
        nd'.ents.length + L.countP (fun n => decide (Proper n)) = nd.ents.length ∧
        ∀ m j, (m, j) ∈ nd'.ents ↔ (m, j) ∈ nd.ents ∧ ¬ (m ∈ L ∧ Proper m) := by
  intro L
  induction L with
  | nil =>
    intro s nd hR hc w hnd hd hw _ _
    refine ⟨s, nd, rfl, rfl, hR, ?_, hnd, rfl, rfl, by simp⟩
    exact (Cut.refl _ s).weaken (by simp) (fun _ _ _ _ _ _ _ _ h => h)
  | cons n L ih =>
    intro s nd hR hc w hnd hd hw hnodup hL
    obtain ⟨hnL, hnodup'⟩ := List.nodup_cons.1 hnodup
    by_cases hpr : Proper n
    · obtain ⟨⟨k, hk⟩, hplain⟩ := hL n (by simp) hpr
      have T := hR.inv.fs.tree
      obtain ⟨hgood, -, -, kd, hkd, -⟩ := T.ent hnd hk hpr
      have hcw := (hR.inv.cage c cg hc).2.2
      obtain ⟨hchild, hne⟩ := child_path hcw hpath hgood
      rw [hP] at hchild
      have wk : Walk s.fs.inodes rootIno (P ++ [n]) k := w.snoc hnd hd hk
      have gP : ∀ m ∈ P ++ [n], Proper m := by
        rw [← hchild]; exact fun m hm => Good.proper (hR.inv.gp hc _ m hm)
      have hlead : Leads s cg (child path n) k := by unfold Leads; rw [hchild]; exact wk
      have hkind := hplain.kind _ k kd gP (List.prefix_refl _) wk hkd
      obtain ⟨par, hr, -⟩ := hR.inv.walk_found hc hlead
      have hstat : (step s c (.stat (child path n))).2 = { ret := .ok 0, stat := some (statOf k kd) } := by
        simp only [step, hc, Fs.stat, hr, hkd]
      obtain ⟨s1, h1, tk⟩ := hf s cg n k nd kd hR hc rfl hfree w hnd hd hw hk hpr hkd hplain
      have w1 : Walk s1.fs.inodes rootIno P i :=
        (tk.cut.paths P i (fun m hm => gP m (by simp [hm]))).2 ⟨w, not_prefix_snoc P n⟩
      have hL1 : ∀ m ∈ L, Proper m → (∃ k, (m, k) ∈ (entDel nd.ents n)) ∧ Plain s1 (P ++ [m]) h := by
        intro m hm hpm
        obtain ⟨⟨k', hk'⟩, hp'⟩ := hL m (by simp [hm]) hpm
        refine ⟨⟨k', mem_entDel.2 ⟨hk', by rintro rfl; exact hnL hm⟩⟩, hp'.keep hR tk.cut ?_⟩
        rintro q hq rfl
        exact not_prefix_snoc _ _ hq
      obtain ⟨s2, nd2, e1, e2, e3, e4, e5, e6, e7, e8⟩ := ih s1 _ tk.reach (by rw [tk.cages]; exact hc) w1 tk.par hd hw hnodup' hL1
      refine ⟨s2, nd2, ?_, e2.trans tk.cages, e3, ?_, e5, e6, ?_, ?_⟩
      · have hnd' : ¬ (n = dot ∨ n = dotdot) := fun e => e.elim hpr.1 hpr.2
        have hm : modeIsDir (statOf k kd).mode = kd.isDir := hkind
        simp only [visitNames, if_neg hnd', hstat, hm, h1, e1]
        simp
      · refine (tk.cut.trans e4).weaken ?_ (fun _ _ _ _ _ _ _ _ h => h)
        intro q k' gq wq
        constructor
        · rintro (h | ⟨m, a, b, h⟩)
          · exact ⟨n, by simp, hpr, h⟩
          · exact ⟨m, by simp [a], b, h⟩
        · rintro ⟨m, a, b, h⟩
          rcases List.mem_cons.1 a with rfl | a
          · exact .inl h
          · exact .inr ⟨m, a, b, h⟩
      · have := entDel_length (T.nodup hnd) ((entGet_iff (T.nodup hnd)).2 hk)
        rw [List.countP_cons_of_pos (by simpa using hpr)]
        simp only at e7; omega
      · intro m j
        rw [e8 m j]
        simp only [mem_entDel, List.mem_cons]
        constructor
        · rintro ⟨⟨a, b⟩, c⟩
          refine ⟨a, ?_⟩
          rintro ⟨rfl | d, e⟩
          · exact b rfl
          · exact c ⟨d, e⟩
        · rintro ⟨a, b⟩
          refine ⟨⟨a, ?_⟩, fun c => b ⟨.inr c.1, c.2⟩⟩
          rintro rfl
          exact b ⟨.inl rfl, hpr⟩
    · obtain ⟨s2, nd2, e1, e2, e3, e4, e5, e6, e7, e8⟩ := ih s nd hR hc w hnd hd hw hnodup' (fun m hm => hL m (by simp [hm]))
      have hdots : n = dot ∨ n = dotdot := by
        by_cases a : n = dot
        · exact .inl a
        · by_cases b : n = dotdot
          · exact .inr b
          · exact absurd ⟨a, b⟩ hpr
      refine ⟨s2, nd2, by simp only [visitNames, if_pos hdots, e1], e2, e3, ?_, e5, e6,
        by rw [List.countP_cons_of_neg (by simpa using hpr)]; exact e7, ?_⟩
      · refine e4.weaken ?_ (fun _ _ _ _ _ _ _ _ h => h)
        intro q k' gq wq
        constructor
        · rintro ⟨m, a, b, h⟩; exact ⟨m, by simp [a], b, h⟩
        · rintro ⟨m, a, b, h⟩
          rcases List.mem_cons.1 a with rfl | a
          · exact absurd b hpr
          · exact ⟨m, a, b, h⟩
      · intro m j
        rw [e8 m j]
        simp only [List.mem_cons]
        constructor
        · rintro ⟨a, b⟩
          refine ⟨a, ?_⟩
          rintro ⟨rfl | d, e⟩
          · exact hpr e
          · exact b ⟨d, e⟩
        · rintro ⟨a, b⟩; exact ⟨a, fun c => b ⟨.inr c.1, c.2⟩⟩

/-- A walk passes through its prefixes. -/
theorem Walk_cut {ino : Nat → Option Inode} {k : Nat} (a : List Name) : ∀ {d : Nat} {b : List Name}, Walk ino d (a ++ b) k →
    ∃ e, Walk ino d a e ∧ Walk ino e b k := by
  induction a with
  | nil => intro d b w; exact ⟨d, .here _, w⟩
  | cons n a ih =>
    intro d b w
    cases w with
    | down h1 h2 h3 w =>
      obtain ⟨e, w1, w2⟩ := ih w
      exact ⟨e, .down h1 h2 h3 w1, w2⟩

theorem clipped_lt : Getdents.clipped < 65536 := by decide

/-- Reading a directory that fits in the buffer, from the start: all its names, and the position behind the last entry. -/
theorem fill_whole {es : List (Str × Nat)} (hs : Getdents.Sane es) (hsum : (es.map (fun e => Getdents.recLen e.1)).sum ≤ 65536) :
    (Getdents.fill 65536 es 0).1.length = es.length ∧
    dents 65536 (((Getdents.fill 65536 es 0).1.flatMap Getdents.Rec.bytes).take (Getdents.fill 65536 es 0).2) =
      some (es.map (·.1)) ∧ (es ≠ [] → 0 < (Getdents.fill 65536 es 0).2) := by
  have h1 := fill_all 65536 es 0 (by omega)
  obtain ⟨h2, -, -⟩ := Getdents.fill_total 65536 es 0 (by omega)
  have h3 := Getdents.fill_count 65536 es 0
  obtain ⟨-, h4, -⟩ := Getdents.fill_total 65536 es 0 (by omega)
  refine ⟨h1, ?_, ?_⟩
  · have h5 := Getdents.parse_fill 65536 es 0 hs 65536 (by omega)
    rw [h1, List.take_length] at h5
    rw [List.take_of_length_le (by omega)]
    exact dents_parse _ _ _ h5
  · intro hne
    have := List.length_pos_iff.2 hne
    omega

theorem fill_none (es : List (Str × Nat)) {pos : Nat} (h : es.length ≤ pos) :
    Getdents.fill 65536 (es.drop pos) 0 = ([], 0) := by
  rw [List.drop_of_length_le h]; rfl

theorem withSlot_fds (cg : Cage) (fd : Nat) (o : Option Desc) : (cg.withSlot fd o).fds fd = o := by
  simp only [Cage.withSlot, upd_same]

theorem withSlot_path (cg : Cage) (fd : Nat) (o : Option Desc) (p : Str) : (cg.withSlot fd o).path p = cg.path p := rfl

theorem withSlot_withSlot (cg : Cage) (fd : Nat) (o o' : Option Desc) : (cg.withSlot fd o).withSlot fd o' = cg.withSlot fd o' := by
  simp only [Cage.withSlot, upd_upd]

theorem withSlot_none {cg : Cage} {fd : Nat} (h : cg.fds fd = none) : cg.withSlot fd none = cg := by
  simp only [Cage.withSlot]
  rw [← h, upd_self]

/-- `visit_children` with a visitor that removes the child: everything below the directory is gone, nothing else is touched,
and the descriptors are as before. -/
theorem visit_spec {f : State → Str → Bool → Run} {c : Nat} {path : Str} {P : List Name} {i h : Nat} {cg : Cage} {s : State}
    {nd : Inode} (hf : Removes f c path P i h cg.cwd) (hR : Reach s) (hc : s.cages c = some cg) (hpath : path ≠ [])
    (hP : cg.path path = P) (hfree : h + 1 ≤ free cg.fds) (w : Walk s.fs.inodes rootIno P i) (hnd : s.fs.inodes i = some nd)
    (hd : nd.isDir) (hw : nd.mode &&& sIWALL ≠ 0) (hs : Getdents.Sane nd.ents)
    (hsum : (nd.ents.map (fun e => Getdents.recLen e.1)).sum ≤ 65536) (hch : ∀ n, Plain s (P ++ [n]) h) (k : Nat) :
    ∃ s' nd', visit f c path (k + 2) s = .done s' ∧ s'.cages = s.cages ∧ Reach s' ∧
      Cut (fun q => P <+: q ∧ q ≠ P) (fun q => q = P) s s' ∧ s'.fs.inodes i = some nd' ∧
      nd'.kind = nd.kind ∧ nd'.mode = nd.mode ∧ nd'.ref = nd.ref ∧ nd'.size = nd.size ∧
      ∀ m j, (m, j) ∈ nd'.ents ↔ (m, j) ∈ nd.ents ∧ ¬ Proper m := by
  have T := hR.inv.fs.tree
  have gP : ∀ m ∈ P, Proper m := by rw [← hP]; exact fun m hm => Good.proper (hR.inv.gp hc _ m hm)
  have hi : Leads s cg path i := by unfold Leads; rw [hP]; exact w
  have hlive : Live s.fs.inodes i := by
    rcases snoc_cases P with e | ⟨a, m, e⟩
    · subst e; cases w; exact .inl rfl
    · subst e
      obtain ⟨x, xd, -, hx, -, hm⟩ := w.split
      exact .inr ⟨x, xd, m, hx, hm, gP m (by simp)⟩
  have h7 := T.live_ne7 hlive
  -- open
  obtain ⟨s1, fd, o1, ofd, ofree, ocg, oR, odisk, oino⟩ := open_dir hR hc hpath hi hnd hd (by omega)
  have oc : s1.cages c = some (cg.withSlot fd (some (.file i 0 0#32))) := by rw [ocg, upd_same]
  have cut1 : Cut (fun _ => False) (fun q => q = P) s s1 := 
    cut_attr hR gP w hnd hd (nd' := { nd with ref := nd.ref + 1 }) rfl rfl oino odisk
  have nd1 : s1.fs.inodes i = some { nd with ref := nd.ref + 1 } := by rw [oino, upd_same]
  -- first getdents
  obtain ⟨hlen, hdents, hpos⟩ := fill_whole hs hsum
  have hents : nd.ents ≠ [] := by
    obtain ⟨g1, -⟩ := T.dots hnd hd h7
    intro e; rw [e] at g1; simp [entGet] at g1
  obtain ⟨s2, g1, gR, gfs, gcg⟩ := getdents_dir oR oc ofd (withSlot_fds _ _ _) nd1 hd clipped_lt
  simp only [List.drop_zero] at g1 gcg
  rw [withSlot_withSlot, ocg, upd_upd, hlen, Nat.zero_add, Nat.min_self] at gcg
  have gc : s2.cages c = some (cg.withSlot fd (some (.file i nd.ents.length 0#32))) := by rw [gcg, upd_same]
  have w2 : Walk s2.fs.inodes rootIno P i := by rw [gfs]; exact (cut1.paths P i gP).2 ⟨w, id⟩
  have nd2 : s2.fs.inodes i = some { nd with ref := nd.ref + 1 } := by rw [gfs]; exact nd1
  have cut2 : Cut (fun _ => False) (fun q => q = P) s s2 :=
    ⟨by rw [gfs]; exact cut1.paths, by rw [gfs]; exact cut1.dirs, by rw [gfs]; exact cut1.files⟩
  -- the children
  have hfree2 : h ≤ free (cg.withSlot fd (some (.file i nd.ents.length 0#32))).fds := by
    have := free_upd (d := .file i nd.ents.length 0#32) ofree ofd
    simp only [Cage.withSlot]; omega
  have hmem : ∀ n ∈ nd.ents.map (·.1), ∃ j, (n, j) ∈ nd.ents := by
    intro n hn
    obtain ⟨⟨a, b⟩, hab, rfl⟩ := List.mem_map.1 hn
    exact ⟨b, hab⟩
  obtain ⟨s3, nd3, v1, v2, v3, v4, v5, v6, v7, v8⟩ := visitNames_spec (cg := cg.withSlot fd (some (.file i nd.ents.length 0#32))) hf
    hpath hP hfree2 (nd.ents.map (·.1)) s2 _ gR gc w2 nd2 hd hw (T.nodup hnd) (fun n hn hpn =>
      ⟨hmem n hn, (hch n).keep hR cut2 (by rintro q hq rfl; exact not_prefix_snoc _ _ hq)⟩)
  have hd3 : nd3.isDir := by rw [v6]; exact hd
  have gc3 : s3.cages c = some (cg.withSlot fd (some (.file i nd.ents.length 0#32))) := by rw [v2]; exact gc
  -- second getdents
  obtain ⟨s4, x1, xR, xfs, xcg⟩ := getdents_dir v3 gc3 ofd (withSlot_fds _ _ _) v5 hd3 clipped_lt
  rw [fill_none _ (by simp only at v7; omega)] at x1 xcg
  simp only [List.flatMap_nil] at x1
  rw [withSlot_withSlot, v2, gcg, upd_upd] at xcg
  -- close
  have nd4 : s4.fs.inodes i = some nd3 := by rw [xfs]; exact v5
  have xc : s4.cages c = some (cg.withSlot fd (some (.file i (min (nd.ents.length + ([] : List Getdents.Rec).length) nd3.ents.length) 0#32))) := by
    rw [xcg, upd_same]
  have w3 : Walk s3.fs.inodes rootIno P i := (v4.paths P i gP).2 ⟨w2, by rintro ⟨n, -, -, hq⟩; exact not_prefix_snoc _ _ hq⟩
  have hl4 : nd3.link ≠ 2 := by
    have T3 := v3.inv.fs.tree
    obtain ⟨a, p, b, -⟩ := T3.dots v5 hd3 h7
    have := T3.dlink v5 hd3 h7
    have l1 := entDel_length (T3.nodup v5) a
    have l2 : 0 < (entDel nd3.ents dot).length := by
      refine List.length_pos_iff.2 ?_
      intro e
      have hm := mem_entDel (es := nd3.ents) (n := dot) |>.2 ⟨entGet_mem b, by decide⟩
      rw [e] at hm; simp at hm
    omega
  obtain ⟨s5, c1, cR, cdisk, cino, ccg⟩ := close_dir xR xc ofd (withSlot_fds _ _ _) nd4 hd3 hl4
  rw [withSlot_withSlot, xcg, upd_upd, withSlot_none ofree, ← hc, upd_self] at ccg
  refine ⟨s5, { nd3 with ref := nd3.ref - 1 }, ?_, ccg, cR, ?_, by rw [cino, upd_same], ?_, ?_, ?_, ?_, ?_⟩
  · have hz : ¬ (((Getdents.fill 65536 nd.ents 0).2 : Nat) : Int) = 0 := by have := hpos hents; omega
    simp only [visit, o1, Out.r, visitLoop, g1, if_neg hz, Int.toNat_natCast, hdents, v1, x1]
    exact c1
  · have cut4 : Cut (fun _ => False) (fun q => q = P) s3 s5 := by
      refine cut_attr v3 gP w3 v5 hd3 (nd' := { nd3 with ref := nd3.ref - 1 }) rfl rfl ?_ ?_
      · rw [cino, xfs]
      · rw [cdisk, xfs]
    refine ((cut2.trans v4).trans cut4).weaken ?_ (fun _ _ _ _ _ _ _ _ h => h)
    intro q j gq wq
    constructor
    · rintro ((h | ⟨n, a, b, h⟩) | h)
      · exact h.elim
      · refine ⟨(List.prefix_append _ _).trans h, ?_⟩
        rintro rfl; exact not_prefix_snoc _ _ h
      · exact h.elim
    · rintro ⟨⟨r, rfl⟩, hne⟩
      obtain ⟨e, a, b⟩ := Walk_cut P wq
      have := walk_fun T a w; subst this
      cases b with
      | here => simp at hne
      | down y1 y2 y3 y4 =>
        rw [hnd] at y1; cases y1
        refine .inl (.inr ⟨_, List.mem_map.2 ⟨_, y3, rfl⟩, gq _ (by simp), ?_⟩)
        exact ⟨_, List.append_assoc _ _ _⟩
  · have e := congrArg Inode.kind v6
    exact e
  · have e := congrArg Inode.mode v6
    exact e
  · have : nd3.ref = nd.ref + 1 := congrArg Inode.ref v6
    simp only [this, Nat.add_sub_cancel]
  · have e := congrArg Inode.size v6
    exact e
  · intro m j
    rw [v8 m j]
    constructor
    · rintro ⟨a, b⟩
      exact ⟨a, fun hp => b ⟨List.mem_map.2 ⟨_, a, rfl⟩, hp⟩⟩
    · rintro ⟨a, b⟩; exact ⟨a, fun hp => b hp.2⟩

/-- The visitor of `lind_deltree` and `cleartmp`. -/
def remover (c k : Nat) (s : State) (p : Str) (d : Bool) : Run := if d then deltree c k s p else call s c (.unlink p)

theorem deltree_succ (c k : Nat) (s : State) (path : Str) : deltree c (k + 1) s path =
    match (step s c (.stat path)).2.ret, (step s c (.stat path)).2.stat with
    | .ok _, some x =>
      if modeIsDir x.mode then
        match call s c (.chmod path sIRWXA) with
        | .done s1 =>
          match visit (remover c k) c path k s1 with
          | .done s2 => call s2 c (.rmdir path)
          | r => r
        | r => r
      else call s c (.unlink path)
    | .panic, _ => .abort
    | _, _ => .done s := rfl

/-- `lind_deltree` on a directory takes the directory and everything below it away, and nothing else. -/
def Deletes (c k h : Nat) : Prop :=
  ∀ (s : State) (cg : Cage) (p : Str) (i d : Nat) (nd pd : Inode) (ps : List Name) (n : Name), Reach s → s.cages c = some cg →
    p ≠ [] → Leads s cg p i → s.fs.inodes i = some nd → nd.isDir → cg.path p = ps ++ [n] → Walk s.fs.inodes rootIno ps d →
    s.fs.inodes d = some pd → pd.mode &&& sIWALL ≠ 0 → Plain s (ps ++ [n]) h → h ≤ free cg.fds →
    ∃ s', deltree c k s p = .done s' ∧ Took c ps n d pd s s'

theorem remover_removes {c k h : Nat} (hD : Deletes c k h) {path : Str} {P : List Name} {i : Nat} {cwd : Str} (hpath : path ≠ [])
    (hP : ∀ cg : Cage, cg.cwd = cwd → cg.path path = P) : Removes (remover c k) c path P i h cwd := by
  intro s cg n j nd kd hR hc hcwd hfree w hnd hd hw hm hpr hkd hplain
  have T := hR.inv.fs.tree
  obtain ⟨hgood, -⟩ := T.ent hnd hm hpr
  obtain ⟨hchild, hne⟩ := child_path (hR.inv.cage c cg hc).2.2 hpath hgood
  rw [hP cg hcwd] at hchild
  have hlead : Leads s cg (child path n) j := by unfold Leads; rw [hchild]; exact w.snoc hnd hd hm
  cases hb : kd.isDir with
  | true =>
    simp only [remover, if_true]
    exact hD s cg _ j i kd nd P n hR hc hne hlead hkd hb hchild w hnd hw hplain hfree
  | false =>
    simp only [remover, Bool.false_eq_true, if_false]
    exact unlink_cut hR hc hne hlead hkd hb hchild w hnd hw

theorem chmodded (m : BitVec 32) : ((m &&& ~~~sIRWXA) ||| sIRWXA) &&& sIWALL ≠ 0 ∧
    modeIsDir ((m &&& ~~~sIRWXA) ||| sIRWXA) = modeIsDir m := by
  constructor
  · intro e
    have : ((m &&& ~~~sIRWXA) ||| sIRWXA).getLsbD 1 = true := by
      rw [BitVec.getLsbD_or]; simp [sIRWXA]
    have h2 : (((m &&& ~~~sIRWXA) ||| sIRWXA) &&& sIWALL).getLsbD 1 = true := by
      rw [BitVec.getLsbD_and, this]; decide
    rw [e] at h2; revert h2; decide
  · have : ((m &&& ~~~sIRWXA) ||| sIRWXA) &&& sFileType = m &&& sFileType := by
      have h1 : ~~~sIRWXA &&& sFileType = sFileType := by decide
      have h2 : sIRWXA &&& sFileType = 0#32 := by decide
      rw [BitVec.and_or_distrib_right, BitVec.and_assoc, h1, h2, BitVec.or_zero]
    simp only [modeIsDir, this]

theorem deltree_spec (c : Nat) : ∀ (h k : Nat), h + 2 ≤ k → Deletes c k h := by
  intro h
  induction h with
  | zero =>
    intro k _ s cg p i d nd pd ps n hR hc hp hi hnd hd hP wd hpd hw hplain _
    have gP : ∀ m ∈ ps ++ [n], Proper m := by rw [← hP]; exact fun m hm => Good.proper (hR.inv.gp hc _ m hm)
    have wi : Walk s.fs.inodes rootIno (ps ++ [n]) i := by rw [← hP]; exact hi
    have := (hplain.dirs _ i nd gP (List.prefix_refl _) wi hnd hd).2.2
    omega
  | succ h ih =>
    intro k hk s cg p i d nd pd ps n hR hc hp hi hnd hd hP wd hpd hw hplain hfree
    obtain ⟨k, rfl⟩ : ∃ k', k = k' + 3 := ⟨k - 3, by omega⟩
    have T := hR.inv.fs.tree
    have gP : ∀ m ∈ ps ++ [n], Proper m := by rw [← hP]; exact fun m hm => Good.proper (hR.inv.gp hc _ m hm)
    have gps : ∀ m ∈ ps, Proper m := fun m hm => gP m (by simp [hm])
    have wi : Walk s.fs.inodes rootIno (ps ++ [n]) i := by rw [← hP]; exact hi
    obtain ⟨hr, hdd, hf, hg, hne, h7, hl, -⟩ := found_at hR hc hi hP wd hpd
    have hty := hplain.kind _ i nd gP (List.prefix_refl _) wi hnd
    obtain ⟨hsane, hsum, -⟩ := hplain.dirs _ i nd gP (List.prefix_refl _) wi hnd hd
    have hstat : (step s c (.stat p)).2 = { ret := .ok 0, stat := some (statOf i nd) } := by
      simp only [step, hc, Fs.stat, hP, hr, hnd]
    -- chmod
    obtain ⟨s1, a1, a2, a3, a4, a5⟩ := chmod_dir hR hc hi hnd hd
    have cut1 := cut_attr hR gP wi hnd hd (nd' := { nd with mode := (nd.mode &&& ~~~sIRWXA) ||| sIRWXA }) rfl rfl a5 a4
    have w1 : Walk s1.fs.inodes rootIno (ps ++ [n]) i := (cut1.paths _ i gP).2 ⟨wi, id⟩
    have nd1 : s1.fs.inodes i = some { nd with mode := (nd.mode &&& ~~~sIRWXA) ||| sIRWXA } := by rw [a5, upd_same]
    have hc1 : s1.cages c = some cg := by rw [a2]; exact hc
    obtain ⟨m1, m2⟩ := chmodded nd.mode
    -- children
    have hrem : Removes (remover c (k + 2)) c p (ps ++ [n]) i h cg.cwd := by
      refine remover_removes (ih (k + 2) (by omega)) hp ?_
      intro cg' e
      rw [← hP]; simp only [Cage.path, e]
    obtain ⟨s2, nd2, v1, v2, v3, v4, v5, v6, v7, v8, v9, v10⟩ := visit_spec hrem a3 hc1 hp hP hfree w1 nd1 hd m1 hsane hsum
      (fun x => (hplain.child x).keep hR cut1 (by rintro q hq rfl; exact not_prefix_snoc _ _ hq)) k
    have hc2 : s2.cages c = some cg := by rw [v2]; exact hc1
    have w2 : Walk s2.fs.inodes rootIno (ps ++ [n]) i := (v4.paths _ i gP).2 ⟨w1, fun h => h.2 rfl⟩
    have hd2 : nd2.isDir := isDir_iff.2 (v6.trans (isDir_iff.1 hd))
    have hps : ¬ ps ++ [n] <+: ps := not_prefix_snoc _ _
    have hpsne : ¬ ps = ps ++ [n] := fun e => hps (by rw [← e]; exact List.prefix_refl _)
    have wd1 : Walk s1.fs.inodes rootIno ps d := (cut1.paths _ d gps).2 ⟨wd, id⟩
    have wd2 : Walk s2.fs.inodes rootIno ps d := (v4.paths _ d gps).2 ⟨wd1, fun h => hps h.1⟩
    have hpd1 := cut1.dirs ps d pd gps id hpsne wd hpd hdd
    have hpd2 := v4.dirs ps d pd gps (fun h => hps h.1) hpsne wd1 hpd1 hdd
    -- rmdir
    obtain ⟨s3, r1, r2, r3, r4, r5⟩ := rmdir_cut v3 hc2 hp (i := i) (by unfold Leads; rw [hP]; exact w2) v5 hd2 hP wd2 hpd2 hw
      (fun m j hm => ((v10 m j).1 hm).2) (by rw [v7]; simp only [m2, hty]; exact hd) (by rw [v7]; exact m1)
    refine ⟨s3, ?_, r2.trans (v2.trans a2), r3, ?_, r5⟩
    · have hm : modeIsDir (statOf i nd).mode = true := hty.trans hd
      rw [deltree_succ]
      simp only [hstat, hm, if_true, a1, v1]
      exact r1
    · have B1 := cut1.weaken (A' := fun _ => False) (B' := fun q => q = ps ∨ q = ps ++ [n]) (fun _ _ _ _ => Iff.rfl)
        (fun _ _ _ _ _ _ _ _ e => .inr e)
      have B2 := v4.weaken (A' := fun q => ps ++ [n] <+: q ∧ q ≠ ps ++ [n]) (B' := fun q => q = ps ∨ q = ps ++ [n])
        (fun _ _ _ _ => Iff.rfl) (fun _ _ _ _ _ _ _ _ e => .inr e)
      have B3 := r4.weaken (A' := fun q => ps ++ [n] <+: q) (B' := fun q => q = ps ∨ q = ps ++ [n])
        (fun _ _ _ _ => Iff.rfl) (fun _ _ _ _ _ _ _ _ e => .inl e)
      refine ((B1.trans B2).trans B3).weaken ?_ ?_
      · intro q j _ _
        constructor
        · rintro ((h | h) | h)
          · exact h.elim
          · exact h.1
          · exact h
        · exact fun h => .inr h
      · intro q j x _ _ _ _ hA e
        rcases e with e | e
        · exact e
        · exact absurd (e ▸ List.prefix_refl _) hA

end Verif.FsTools
