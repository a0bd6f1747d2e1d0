import Verif.FsToolsWitness

/-!
# Directories larger than one buffer

The position of an open directory is the index of the next entry.  `visit_children` reads one buffer, removes what it read, and asks
for more: the entries that were not read have moved to the front, and those whose index is below the position are skipped.
-/

namespace Verif.FsTools

open Verif.Path Verif.Fs Verif.Kernel

/-- Reading a directory whose records do not fit: the entries `X` that fit. -/
theorem fill_part (b : Nat) (X Y : List (Str × Nat)) (y : Str × Nat) : ∀ a, a + (X.map (fun e => Getdents.recLen e.1)).sum ≤ b →
    b < a + (X.map (fun e => Getdents.recLen e.1)).sum + Getdents.recLen y.1 →
    (Getdents.fill b (X ++ y :: Y) a).1.length = X.length := by
  induction X with
  | nil =>
    intro a h1 h2
    simp only [List.map_nil, List.sum_nil, Nat.add_zero] at h1 h2
    rw [List.nil_append, Getdents.fill_cons, if_pos h2]
    rfl
  | cons e es ih =>
    intro a h1 h2
    simp only [List.map_cons, List.sum_cons] at h1 h2
    rw [List.cons_append, Getdents.fill_cons, if_neg (by omega)]
    simp only [List.length_cons, ih (a + Getdents.recLen e.1) (by omega) (by omega)]

theorem recLen_ge (n : Str) : 8 ≤ Getdents.recLen n := by unfold Getdents.recLen Getdents.clipped; omega

theorem visit_big {f : State → Str → Bool → Run} {c : Nat} {path : Str} {P : List Name} {i : Nat} {cg : Cage} {s : State}
    {nd : Inode} (hf : Removes f c path P i 0 cg.cwd) (hR : Reach s) (hc : s.cages c = some cg) (hpath : path ≠ [])
    (hP : cg.path path = P) (hfree : 1 ≤ free cg.fds) (w : Walk s.fs.inodes rootIno P i) (hnd : s.fs.inodes i = some nd)
    (hd : nd.isDir) (hw : nd.mode &&& sIWALL ≠ 0) (hs : Getdents.Sane nd.ents) {X Y : List (Str × Nat)} {y : Str × Nat}
    (he : nd.ents = X ++ y :: Y) (hX : ∀ e ∈ X, Proper e.1) (hne : X ≠ [])
    (hfit : (X.map (fun e => Getdents.recLen e.1)).sum ≤ 65536)
    (hover : 65536 < (X.map (fun e => Getdents.recLen e.1)).sum + Getdents.recLen y.1) (hlen : Y.length < X.length)
    (hch : ∀ e ∈ X, Plain s (P ++ [e.1]) 0) (k : Nat) :
    ∃ s' nd', visit f c path (k + 2) s = .done s' ∧ s'.cages = s.cages ∧ Reach s' ∧
      Cut (fun q => ∃ e ∈ X, P ++ [e.1] <+: q) (fun q => q = P) s s' ∧ s'.fs.inodes i = some nd' ∧ nd'.kind = nd.kind ∧
      ∀ e, e ∈ nd'.ents ↔ e = y ∨ e ∈ Y := by
  have T := hR.inv.fs.tree
  have gP : ∀ m ∈ P, Proper m := by rw [← hP]; exact fun m hm => Good.proper (hR.inv.gp hc _ m hm)
  have hi : Leads s cg path i := by unfold Leads; rw [hP]; exact w
  have hlive : Live s.fs.inodes i := by
    rcases snoc_cases P with e | ⟨a, m, e⟩
    · subst e; cases w; exact .inl rfl
    · subst e
      obtain ⟨x, xd, -, hx, -, hm⟩ := w.split
      exact .inr ⟨x, xd, m, hx, hm, gP m (by simp)⟩
  have h7 := T.live_ne7 hlive
  -- open
  obtain ⟨s1, fd, o1, ofd, ofree, ocg, oR, odisk, oino⟩ := open_dir hR hc hpath hi hnd hd (by omega)
  have oc : s1.cages c = some (cg.withSlot fd (some (.file i 0 0#32))) := by rw [ocg, upd_same]
  have cut1 : Cut (fun _ => False) (fun q => q = P) s s1 := 
    cut_attr hR gP w hnd hd (nd' := { nd with ref := nd.ref + 1 }) rfl rfl oino odisk
  have nd1 : s1.fs.inodes i = some { nd with ref := nd.ref + 1 } := by rw [oino, upd_same]
  -- first getdents
  have hflen : (Getdents.fill 65536 nd.ents 0).1.length = X.length := by
    rw [he]; exact fill_part 65536 X Y y 0 (by omega) (by omega)
  have hcnt := Getdents.fill_count 65536 nd.ents 0
  obtain ⟨htot, hle, -⟩ := Getdents.fill_total 65536 nd.ents 0 (by omega)
  have hXpos := List.length_pos_iff.2 hne
  have hdents : dents 65536 (((Getdents.fill 65536 nd.ents 0).1.flatMap Getdents.Rec.bytes).take (Getdents.fill 65536 nd.ents 0).2) =
      some (X.map (·.1)) := by
    have h5 := Getdents.parse_fill 65536 nd.ents 0 hs 65536 (by omega)
    rw [hflen, he, List.take_left] at h5
    rw [he] at htot ⊢
    rw [List.take_of_length_le (by omega)]
    exact dents_parse _ _ _ h5
  obtain ⟨s2, g1, gR, gfs, gcg⟩ := getdents_dir oR oc ofd (withSlot_fds _ _ _) nd1 hd clipped_lt
  simp only [List.drop_zero] at g1 gcg
  have hmin : min (0 + X.length) nd.ents.length = X.length := by
    rw [he, List.length_append]; omega
  rw [withSlot_withSlot, ocg, upd_upd, hflen, hmin] at gcg
  have gc : s2.cages c = some (cg.withSlot fd (some (.file i X.length 0#32))) := by rw [gcg, upd_same]
  have w2 : Walk s2.fs.inodes rootIno P i := by rw [gfs]; exact (cut1.paths P i gP).2 ⟨w, id⟩
  have nd2 : s2.fs.inodes i = some { nd with ref := nd.ref + 1 } := by rw [gfs]; exact nd1
  have cut2 : Cut (fun _ => False) (fun q => q = P) s s2 :=
    ⟨by rw [gfs]; exact cut1.paths, by rw [gfs]; exact cut1.dirs, by rw [gfs]; exact cut1.files⟩
  -- the children
  have hnodup : (nd.ents.map (·.1)).Nodup := T.nodup hnd
  have hnX : (X.map (·.1)).Nodup := by
    rw [he, List.map_append] at hnodup
    exact (List.nodup_append.1 hnodup).1
  have hdisj : ∀ e ∈ y :: Y, e.1 ∉ X.map (·.1) := by
    rw [he, List.map_append] at hnodup
    intro e h1 h2
    exact (List.nodup_append.1 hnodup).2.2 _ h2 _ (List.mem_map.2 ⟨e, h1, rfl⟩) rfl
  obtain ⟨s3, nd3, v1, v2, v3, v4, v5, v6, v7, v8⟩ := visitNames_spec (cg := cg.withSlot fd (some (.file i X.length 0#32))) hf
    hpath hP (Nat.zero_le _) (X.map (·.1)) s2 _ gR gc w2 nd2 hd hw hnX (by
      intro n hn _
      obtain ⟨e, h1, rfl⟩ := List.mem_map.1 hn
      exact ⟨⟨e.2, by show e ∈ nd.ents; rw [he]; simp [h1]⟩,
        (hch e h1).keep hR cut2 (by rintro q hq rfl; exact not_prefix_snoc _ _ hq)⟩)
  have hd3 : nd3.isDir := by rw [v6]; exact hd
  have gc3 : s3.cages c = some (cg.withSlot fd (some (.file i X.length 0#32))) := by rw [v2]; exact gc
  have hcount : (X.map (·.1)).countP (fun n => decide (Proper n)) = X.length := by
    have : (X.map (·.1)).countP (fun n => decide (Proper n)) = (X.map (·.1)).length := by
      refine List.countP_eq_length.2 ?_
      intro n hn
      obtain ⟨e, h1, rfl⟩ := List.mem_map.1 hn
      exact decide_eq_true (hX e h1)
    rw [this, List.length_map]
  -- second getdents
  have hl3 : nd3.ents.length ≤ X.length := by
    have := v7
    rw [hcount] at this
    simp only [he, List.length_append, List.length_cons] at this
    omega
  obtain ⟨s4, x1, xR, xfs, xcg⟩ := getdents_dir v3 gc3 ofd (withSlot_fds _ _ _) v5 hd3 clipped_lt
  rw [fill_none _ hl3] at x1 xcg
  simp only [List.flatMap_nil] at x1
  rw [withSlot_withSlot, v2, gcg, upd_upd] at xcg
  -- close
  have nd4 : s4.fs.inodes i = some nd3 := by rw [xfs]; exact v5
  have xc : s4.cages c = some (cg.withSlot fd (some (.file i (min (X.length + ([] : List Getdents.Rec).length) nd3.ents.length) 0#32))) := by
    rw [xcg, upd_same]
  have w3 : Walk s3.fs.inodes rootIno P i := (v4.paths P i gP).2 ⟨w2, by rintro ⟨n, -, -, hq⟩; exact not_prefix_snoc _ _ hq⟩
  have hl4 : nd3.link ≠ 2 := by
    have T3 := v3.inv.fs.tree
    obtain ⟨a, p, b, -⟩ := T3.dots v5 hd3 h7
    have := T3.dlink v5 hd3 h7
    have l1 := entDel_length (T3.nodup v5) a
    have l2 : 0 < (entDel nd3.ents dot).length := by
      refine List.length_pos_iff.2 ?_
      intro e
      have hm := mem_entDel (es := nd3.ents) (n := dot) |>.2 ⟨entGet_mem b, by decide⟩
      rw [e] at hm; simp at hm
    omega
  obtain ⟨s5, c1, cR, cdisk, cino, ccg⟩ := close_dir xR xc ofd (withSlot_fds _ _ _) nd4 hd3 hl4
  rw [withSlot_withSlot, xcg, upd_upd, withSlot_none ofree, ← hc, upd_self] at ccg
  refine ⟨s5, { nd3 with ref := nd3.ref - 1 }, ?_, ccg, cR, ?_, by rw [cino, upd_same], ?_, ?_⟩
  · have hz : ¬ (((Getdents.fill 65536 nd.ents 0).2 : Nat) : Int) = 0 := by omega
    simp only [visit, o1, Out.r, visitLoop, g1, if_neg hz, Int.toNat_natCast, hdents, v1, x1]
    exact c1
  · have cut4 : Cut (fun _ => False) (fun q => q = P) s3 s5 := by
      refine cut_attr v3 gP w3 v5 hd3 (nd' := { nd3 with ref := nd3.ref - 1 }) rfl rfl ?_ ?_
      · rw [cino, xfs]
      · rw [cdisk, xfs]
    refine ((cut2.trans v4).trans cut4).weaken ?_ (fun _ _ _ _ _ _ _ _ h => h)
    intro q j gq wq
    constructor
    · rintro ((h | ⟨n, a, b, h⟩) | h)
      · exact h.elim
      · obtain ⟨e, h1, rfl⟩ := List.mem_map.1 a
        exact ⟨e, h1, h⟩
      · exact h.elim
    · rintro ⟨e, h1, h⟩
      exact .inl (.inr ⟨e.1, List.mem_map.2 ⟨e, h1, rfl⟩, hX e h1, h⟩)
  · have e := congrArg Inode.kind v6
    exact e
  · rintro ⟨m, j⟩
    have key : (m, j) ∈ nd3.ents ↔ (m, j) = y ∨ (m, j) ∈ Y := by
      rw [v8 m j]
      show (m, j) ∈ nd.ents ∧ _ ↔ _
      rw [he]
      constructor
      · rintro ⟨a, b⟩
        rcases List.mem_append.1 a with a | a
        · exact absurd ⟨List.mem_map.2 ⟨_, a, rfl⟩, hX _ a⟩ b
        · exact List.mem_cons.1 a
      · intro h
        have h := List.mem_cons.2 h
        exact ⟨by rw [List.mem_append]; exact .inr h, fun x => hdisj _ h x.1⟩
    exact key

/-- Something that is no directory, and is not taken for one, is a tree of no levels. -/
theorem plain_leaf {s : State} (hR : Reach s) {P : List Name} {k : Nat} {kd : Inode} (w : Walk s.fs.inodes rootIno P k)
    (hk : s.fs.inodes k = some kd) (hd : kd.isDir = false) (hm : modeIsDir kd.mode = false) (h : Nat) : Plain s P h := by
  have T := hR.inv.fs.tree
  have key : ∀ q j nd, P <+: q → Walk s.fs.inodes rootIno q j → s.fs.inodes j = some nd → nd = kd := by
    rintro q j nd ⟨r, rfl⟩ wq hj
    obtain ⟨e, a, b⟩ := Walk_cut P wq
    have := walk_fun T a w; subst this
    cases b with
    | here => rw [hj] at hk; exact Option.some.inj hk
    | down y1 y2 y3 y4 => rw [hk] at y1; cases y1; rw [hd] at y2; cases y2
  constructor
  · intro q j nd _ hp wq hj
    rw [key q j nd hp wq hj, hd, hm]
  · intro q j nd _ hp wq hj hx
    rw [key q j nd hp wq hj, hd] at hx; cases hx

/-- The condition under which a buffer is not enough: the entries `X` fill it, none of them is a directory, and as many or fewer
entries come after them. -/
structure Overfull (s : State) (i : Nat) (X : List (Str × Nat)) (Y : List (Str × Nat)) (nd : Inode) : Prop where
  at_ : s.fs.inodes i = some nd
  dir : nd.kind = .dir
  ents : nd.ents = X ++ Y
  sane : ∀ e ∈ nd.ents, (0 : UInt8) ∉ e.1 ∧ e.1.length < 60000 ∧ e.2 < 2 ^ 64
  leaf : ∀ e ∈ X, isDots e.1 = false ∧ ∃ kd, s.fs.inodes e.2 = some kd ∧ kd.kind ≠ .dir ∧ kd.mode &&& 0o170000#32 ≠ 0o40000#32
  fit : (X.map (fun e => Getdents.recLen e.1)).sum ≤ 65536
  over : ∃ y, Y.head? = some y ∧ 65536 < (X.map (fun e => Getdents.recLen e.1)).sum + Getdents.recLen y.1
  fewer : Y.length ≤ X.length

theorem Overfull.visit {s : State} {i : Nat} {X Y : List (Str × Nat)} {nd : Inode} (o : Overfull s i X Y nd) (hR : Reach s) {c : Nat}
    {cg : Cage} (hc : s.cages c = some cg) {p : Str} (hp : p ≠ []) (hi : Leads s cg p i) (hw : nd.mode &&& sIWALL ≠ 0)
    (hfree : 1 ≤ free cg.fds) (k j : Nat) (hj : 2 ≤ j) :
    ∃ s' nd', visit (remover c j) c p (k + 2) s = .done s' ∧ s'.cages = s.cages ∧ Reach s' ∧
      Cut (fun q => ∃ e ∈ X, cg.path p ++ [e.1] <+: q) (fun q => q = cg.path p) s s' ∧ s'.fs.inodes i = some nd' ∧ nd'.kind = nd.kind ∧
      ∀ e, e ∈ nd'.ents ↔ e ∈ Y := by
  obtain ⟨y, h1, h2⟩ := o.over
  obtain ⟨Y', rfl⟩ : ∃ Y', Y = y :: Y' := by
    cases Y with
    | nil => cases h1
    | cons a b => simp only [List.head?_cons, Option.some.injEq] at h1; subst h1; exact ⟨b, rfl⟩
  have hd : nd.isDir := isDir_iff.2 o.dir
  have hne : X ≠ [] := by
    have := o.fewer
    intro e; subst e; simp at this
  have hrem : Removes (remover c j) c p (cg.path p) i 0 cg.cwd :=
    remover_removes (deltree_spec c 0 j hj) hp (fun cg' e => by simp only [Cage.path, e])
  obtain ⟨s', nd', a1, a2, a3, a4, a5, a6, a7⟩ := visit_big hrem hR hc hp rfl hfree hi o.at_ hd hw o.sane o.ents
    (fun e he => (isDots_iff e.1).1 (o.leaf e he).1) hne o.fit h2 (by have := o.fewer; simp only [List.length_cons] at this; omega)
    (by
      intro e he
      obtain ⟨-, kd, b1, b2, b3⟩ := o.leaf e he
      refine plain_leaf hR (hi.snoc o.at_ hd (n := e.1) (k := e.2) (by rw [o.ents]; simp [he])) b1 ?_ ?_ 0
      · cases hb : kd.isDir
        · rfl
        · exact absurd (isDir_iff.1 hb) b2
      · show (kd.mode &&& sFileType == sIFDIR) = false
        exact beq_eq_false_iff_ne.2 b3) k
  exact ⟨s', nd', a1, a2, a3, a4, a5, a6, fun e => by rw [a7, List.mem_cons]⟩

/-- C66, C53, violated in general: clearing a `/tmp` that does not fit in one buffer returns and leaves what did not fit. -/
theorem cleartmp_overfull {s : State} (hR : Reach s) {cg : Cage} (hc : s.cages 0 = some cg) {i : Nat} (hi : Leads s cg tmp i)
    {X Y : List (Str × Nat)} {nd : Inode} (o : Overfull s i X Y nd) (hw : nd.mode &&& 0o222#32 ≠ 0#32) (hfree : 1 ≤ free cg.fds)
    (init : Bool) (k : Nat) :
    ∃ s', cleartmp init (k + 2) s = .done s' ∧ Reach s' ∧ Leads s' cg tmp i ∧ ∀ m j, Entry s' i m j ↔ (m, j) ∈ Y := by
  obtain ⟨par, hr, -⟩ := hR.inv.walk_found hc hi
  have hstat : (step s 0 (.stat tmp)).2 = { ret := .ok 0, stat := some (statOf i nd) } := by
    simp only [step, hc, Fs.stat, hr, o.at_]
  obtain ⟨s', nd', a1, a2, a3, a4, a5, a6, a7⟩ := o.visit hR hc (p := tmp) (by decide) hi hw hfree k (k + 2) (by omega)
  refine ⟨s', ?_, a3, ?_, ?_⟩
  · simp only [cleartmp, hstat]; exact a1
  · refine (a4.paths _ i (fun m hm => Good.proper (hR.inv.gp hc _ m hm))).2 ⟨hi, ?_⟩
    rintro ⟨e, -, h⟩
    exact not_prefix_snoc _ _ h
  · intro m j
    rw [entry_iff a5, a7]

/-- C66, violated in general: deleting a directory that does not fit in one buffer returns, and leaves the directory with what did not
fit, if anything but the dots did not. -/
theorem deltree_overfull {s : State} (hR : Reach s) {c : Nat} {cg : Cage} (hc : s.cages c = some cg) {p : Str} (hp : p ≠ []) {i : Nat}
    (hi : Leads s cg p i) {X Y : List (Str × Nat)} {nd : Inode} (o : Overfull s i X Y nd)
    (hm : nd.mode &&& 0o170000#32 = 0o40000#32) (hY : ∃ e ∈ Y, isDots e.1 = false) (hfree : 1 ≤ free cg.fds) (k : Nat) :
    ∃ s', deltree c (k + 3) s p = .done s' ∧ Reach s' ∧ Leads s' cg p i ∧ ∀ m j, Entry s' i m j ↔ (m, j) ∈ Y := by
  have hd : nd.isDir := isDir_iff.2 o.dir
  obtain ⟨par, hr, -⟩ := hR.inv.walk_found hc hi
  have hstat : (step s c (.stat p)).2 = { ret := .ok 0, stat := some (statOf i nd) } := by
    simp only [step, hc, Fs.stat, hr, o.at_]
  have gP : ∀ m ∈ cg.path p, Proper m := fun m hm => Good.proper (hR.inv.gp hc _ m hm)
  obtain ⟨s1, a1, a2, a3, a4, a5⟩ := chmod_dir hR hc hi o.at_ hd
  have cut1 := cut_attr hR gP hi o.at_ hd (nd' := { nd with mode := (nd.mode &&& ~~~sIRWXA) ||| sIRWXA }) rfl rfl a5 a4
  have hi1 : Leads s1 cg p i := (cut1.paths _ i gP).2 ⟨hi, id⟩
  have hc1 : s1.cages c = some cg := by rw [a2]; exact hc
  have o1 : Overfull s1 i X Y { nd with mode := (nd.mode &&& ~~~sIRWXA) ||| sIRWXA } := by
    refine ⟨by rw [a5, upd_same], o.dir, o.ents, o.sane, ?_, o.fit, o.over, o.fewer⟩
    intro e he
    obtain ⟨b0, kd, b1, b2, b3⟩ := o.leaf e he
    refine ⟨b0, kd, ?_, b2, b3⟩
    rw [a5, upd_ne]
    · exact b1
    · rintro rfl
      rw [o.at_] at b1; cases b1; exact b2 o.dir
  obtain ⟨s2, nd2, v1, v2, v3, v4, v5, v6, v7⟩ := o1.visit a3 hc1 hp hi1 (chmodded nd.mode).1 hfree k (k + 2) (by omega)
  have hi2 : Leads s2 cg p i := by
    refine (v4.paths _ i gP).2 ⟨hi1, ?_⟩
    rintro ⟨e, -, h⟩
    exact not_prefix_snoc _ _ h
  have hc2 : s2.cages c = some cg := by rw [v2]; exact hc1
  have hd2 : nd2.kind = .dir := v6.trans o.dir
  have hnem : ¬ Empty s2 i := by
    obtain ⟨e, h1, h2⟩ := hY
    intro he
    have := he e.1 e.2 ((entry_iff v5).2 ((v7 e).2 h1))
    rw [this] at h2; cases h2
  obtain ⟨pl, r, hr2, hat, hf⟩ := found_exists v3 hc2 p
  have hans := rmdir_answer v3 hc2 hp hat
  have herr : ∃ e, (step s2 c (.rmdir p)).2.ret = .err e := by
    rw [hans]
    cases hf with
    | root => exact ⟨_, rfl⟩
    | free => exact ⟨_, rfl⟩
    | nowhere => exact ⟨_, rfl⟩
    | object e w w' hpd hdd hl hf hg hi' h1 h7 hne =>
      have hii := walk_fun v3.inv.fs.tree w' hi2
      subst hii
      simp only [rmdirAnswer, hnem, not_false_eq_true, if_true]
      split
      · exact ⟨_, rfl⟩
      · split
        · exact ⟨_, rfl⟩
        · exact ⟨_, rfl⟩
  obtain ⟨e, herr⟩ := herr
  have hsame : (step s2 c (.rmdir p)).1 = s2 := by
    have g := v3.inv.gp hc2 p
    revert herr
    simp only [step, hc2]
    exact fun h => nonEmpty_err (onFs_err (fun h => rmdir_err v3.inv.fs g h)) h
  refine ⟨s2, ?_, v3, hi2, fun m j => by rw [entry_iff v5, v7]⟩
  have hm' : modeIsDir (statOf i nd).mode = true := by
    show (nd.mode &&& sFileType == sIFDIR) = true
    exact beq_iff_eq.2 hm
  rw [deltree_succ]
  simp only [hstat, hm', if_true, a1, v1]
  simp only [call, herr, hsame]
  rw [if_neg (by simp)]

/-! ## An instance -/

/-- A name of 20000 bytes `b`. -/
def long (b : UInt8) : Name := List.replicate 20000 b

theorem long_length (b : UInt8) : (long b).length = 20000 := List.length_replicate

theorem long_recLen (b : UInt8) : Getdents.recLen (long b) = 20024 := by
  simp only [Getdents.recLen, long_length, Getdents.clipped]

theorem mem_long {a b : UInt8} (h : a ∈ long b) : a = b := (List.mem_replicate.1 h).2

theorem long_ne {b : UInt8} {n : Name} (h : n.length < 20000) : long b ≠ n := by
  intro e
  have := long_length b
  rw [e] at this; omega

theorem long_good {b : UInt8} (h : b ≠ slash) : Good (long b) :=
  ⟨long_ne (by simp), fun m => h (mem_long m).symm, long_ne (by simp [dot]), long_ne (by simp [dotdot])⟩

theorem long_inj {a b : UInt8} (h : long a = long b) : a = b := by
  have : a ∈ long a := List.mem_replicate.2 ⟨by omega, rfl⟩
  rw [h] at this; exact mem_long this

theorem tmp_path (cg : Cage) : cg.path tmp = [[116, 109, 112]] := by
  rw [Cage.path, normpath_absolute cg.cwd [slash] tmp (by decide)]; decide +kernel

theorem fresh {ino : Nat → Option Inode} {next : Nat} (T : Tree ino next) : ino next = none := by
  cases h : ino next with
  | none => rfl
  | some nd => have := T.bound h; omega

/-- A device file made in `/tmp`. -/
def put (s : State) (b : UInt8) : State := (step s 0 (.mknod (child tmp (long b)) 0o20666#32 0#64)).1

/-- A state with a `/tmp` that holds the entries `E`. -/
structure Tmp (s : State) (E : List (Str × Nat)) : Prop where
  reach : Reach s
  cage : ∃ cg, s.cages 0 = some cg ∧ 1 ≤ free cg.fds
  walk : Walk s.fs.inodes rootIno [[116, 109, 112]] 8
  dir : ∃ l, s.fs.inodes 8 = some { kind := .dir, mode := 0o40777#32, size := 0, link := l, ref := 0, ents := E }
  leaf : ∀ e ∈ E, isDots e.1 = false → ∃ kd, s.fs.inodes e.2 = some kd ∧ kd.kind ≠ .dir ∧ kd.mode = 0o20666#32
  next : s.fs.next = E.length + 7

theorem Tmp.put {s : State} {E : List (Str × Nat)} (t : Tmp s E) {b : UInt8} (hb : b ≠ slash) (hn : ∀ e ∈ E, e.1 ≠ long b) :
    Tmp (put s b) ((long b, E.length + 7) :: E) := by
  obtain ⟨cg, hc, hfree⟩ := t.cage
  obtain ⟨l, hnd⟩ := t.dir
  have T := t.reach.inv.fs.tree
  have hcw := (t.reach.inv.cage 0 cg hc).2.2
  have hg := long_good hb
  obtain ⟨hP, hne⟩ := child_path hcw (p := tmp) (by decide) hg
  rw [tmp_path] at hP
  have hnone : entGet E (long b) = none := entGet_none.2 (fun i hi => hn _ hi rfl)
  have hno : ∀ i, ¬ Leads s cg (child tmp (long b)) i := by
    intro i hi
    unfold Leads at hi
    rw [hP] at hi
    obtain ⟨x, xd, w, hx, hxd, hm⟩ := hi.split
    have := walk_fun T w t.walk; subst this
    rw [hnd] at hx; cases hx
    exact hn _ hm rfl
  obtain ⟨pl, r, hr, hat, hf⟩ := found_exists t.reach hc (child tmp (long b))
  have hat' : At s cg (child tmp (long b)) (.free 8 (long b)) := by
    refine ⟨[[116, 109, 112]], hP, t.walk, ⟨_, hnd, rfl⟩, ?_⟩
    intro i hi
    exact hn _ ((entry_iff hnd).1 hi) rfl
  have hpl := place_unique t.reach hat hat'
  subst hpl
  cases hf with
  | free e w hpd hd hl hf' hg' =>
    rename_i ps pd
    rw [hnd] at hpd; cases hpd
    obtain ⟨fs', g0, g1, g2, -⟩ := create_eq (long b) (fun _ =>
          { kind := .chr (DevNo.devtuple 0#64), mode := 0o20666#32, size := 0, link := 1, ref := 0, ents := [] }) hnd hd
    have hstep : step s 0 (.mknod (child tmp (long b)) 0o20666#32 0#64) = ({ s with fs := fs' }, .r (.ok 0)) := by
      simp only [step, hc, nonEmpty, if_neg hne, State.onFs, Fs.mknod, hr]
      rw [hP, getLast_snoc]
      simp only [g0]
      rw [if_neg (by decide), if_neg (by decide)]
    have hput : FsTools.put s b = { s with fs := fs' } := by rw [FsTools.put, hstep]
    have h8 : (8 : Nat) ≠ s.fs.next := by
      have := t.next
      have hfr : s.fs.inodes s.fs.next = none := fresh T
      intro e; rw [← e, hnd] at hfr; cases hfr
    have hrt : rootIno ≠ s.fs.next := by
      have hfr : s.fs.inodes s.fs.next = none := fresh T
      obtain ⟨rd, h1, -⟩ := T.root
      intro e; rw [← e, h1] at hfr; cases hfr
    refine ⟨?_, ⟨cg, by rw [hput]; exact hc, hfree⟩, ?_, ⟨l + 1, ?_⟩, ?_, ?_⟩
    · rw [FsTools.put]
      exact .step 0 _ t.reach (by simp only [Tame, hc]) (by rw [hstep]; simp [Out.r])
    · rw [hput]
      cases t.walk with
      | down y1 y2 y3 y4 =>
        cases y4
        refine .down ?_ y2 y3 (.here _)
        show fs'.inodes rootIno = _
        rw [g1, upd_ne _ _ hrt, upd_ne _ _ (by decide)]
        exact y1
    · rw [hput]
      show fs'.inodes 8 = _
      rw [g1, upd_ne _ _ h8, upd_same]
      have : entPut E (long b) s.fs.next = (long b, E.length + 7) :: E := by
        rw [t.next]; simp only [entPut, entDel_self hnone]
      simp only [this]
    · intro x hx hdots
      rw [hput]
      show ∃ kd, fs'.inodes x.2 = _ ∧ _
      rcases List.mem_cons.1 hx with rfl | hx
      · refine ⟨_, by rw [g1, ← t.next]; exact upd_same _ _ _, by simp, rfl⟩
      · obtain ⟨kd, k1, k2, k3⟩ := t.leaf x hx hdots
        refine ⟨kd, ?_, k2, k3⟩
        rw [g1, upd_ne, upd_ne]
        · exact k1
        · intro e; rw [e, hnd] at k1; cases k1; exact k2 rfl
        · intro e
          have hfr : s.fs.inodes s.fs.next = none := fresh T
          rw [e, hfr] at k1; cases k1
    · rw [hput]
      show fs'.next = _
      rw [g2, t.next, List.length_cons]

/-- Four files with names of 20000 bytes in `/tmp`. -/
def crowded : State := put (put (put (put init 97) 98) 99) 100

theorem crowded_tmp : Tmp crowded [(long 100, 12), (long 99, 11), (long 98, 10), (long 97, 9), ([46], 8), ([46, 46], 1)] := by
  have t0 : Tmp init [([46], 8), ([46, 46], 1)] := by
    refine ⟨.init, ⟨_, rfl, by decide +kernel⟩, ?_, ⟨3, rfl⟩, by decide, rfl⟩
    obtain ⟨nd, hnd, hk, hm⟩ : ∃ nd, init.fs.inodes rootIno = some nd ∧ nd.isDir ∧ ([116, 109, 112], 8) ∈ nd.ents :=
      ⟨_, rfl, by decide +kernel, by decide +kernel⟩
    exact .down hnd hk hm (.here _)
  have d1 : ∀ b, ([46] : Name) ≠ long b := fun b => (long_ne (by decide)).symm
  have d2 : ∀ b, ([46, 46] : Name) ≠ long b := fun b => (long_ne (by decide)).symm
  have ne : ∀ {a b : UInt8}, a ≠ b → long a ≠ long b := fun h e => h (long_inj e)
  have t1 := t0.put (b := 97) (by decide) (by simp [d1, d2])
  have t2 := t1.put (b := 98) (by decide) (by simp [d1, d2, ne])
  have t3 := t2.put (b := 99) (by decide) (by simp [d1, d2, ne])
  exact t3.put (b := 100) (by decide) (by simp [d1, d2, ne])

theorem crowded_overfull : ∃ cg nd, crowded.cages 0 = some cg ∧ 1 ≤ free cg.fds ∧ Leads crowded cg tmp 8 ∧
    Overfull crowded 8 [(long 100, 12), (long 99, 11), (long 98, 10)] [(long 97, 9), ([46], 8), ([46, 46], 1)] nd ∧
    nd.mode = 0o40777#32 := by
  have t := crowded_tmp
  obtain ⟨cg, hc, hf⟩ := t.cage
  obtain ⟨l, hnd⟩ := t.dir
  have hsane : ∀ b : UInt8, b ≠ 0 → (0 : UInt8) ∉ long b ∧ (long b).length < 60000 := by
    intro b hb
    exact ⟨fun h => hb (mem_long h).symm, by rw [long_length]; omega⟩
  have hdots : ∀ b, b ≠ slash → isDots (long b) = false := fun b h => (isDots_iff _).2 (Good.proper (long_good h))
  refine ⟨cg, _, hc, hf, by unfold Leads; rw [tmp_path]; exact t.walk, ⟨hnd, rfl, rfl, ?_, ?_, ?_, ⟨_, rfl, ?_⟩, by simp⟩, rfl⟩
  · intro e he
    simp only [List.mem_cons, List.not_mem_nil, or_false] at he
    rcases he with rfl | rfl | rfl | rfl | rfl | rfl
    · exact ⟨(hsane 100 (by decide)).1, (hsane 100 (by decide)).2, by decide⟩
    · exact ⟨(hsane 99 (by decide)).1, (hsane 99 (by decide)).2, by decide⟩
    · exact ⟨(hsane 98 (by decide)).1, (hsane 98 (by decide)).2, by decide⟩
    · exact ⟨(hsane 97 (by decide)).1, (hsane 97 (by decide)).2, by decide⟩
    · decide
    · decide
  · intro e he
    have hd : isDots e.1 = false := by
      simp only [List.mem_cons, List.not_mem_nil, or_false] at he
      rcases he with rfl | rfl | rfl <;> exact hdots _ (by decide)
    obtain ⟨kd, k1, k2, k3⟩ := t.leaf e (by
      simp only [List.mem_cons, List.not_mem_nil, or_false] at he ⊢
      rcases he with h | h | h
      · exact .inl h
      · exact .inr (.inl h)
      · exact .inr (.inr (.inl h))) hd
    exact ⟨hd, kd, k1, k2, by rw [k3]; decide⟩
  · simp only [List.map_cons, List.map_nil, long_recLen, List.sum_cons, List.sum_nil]; omega
  · simp only [List.map_cons, List.map_nil, long_recLen, List.sum_cons, List.sum_nil]; omega

/-- C66, C53, violated: with four files in `/tmp` whose names take 20000 bytes each, clearing `/tmp` (as is done at start and at
shutdown), or deleting its tree, returns and leaves one of them there. -/
theorem big_dir_violated : ∃ s cg, Reach s ∧ s.cages 0 = some cg ∧ Leads s cg tmp 8 ∧
    (∀ init k, ∃ s', cleartmp init (k + 2) s = .done s' ∧ ¬ Empty s' 8) ∧
    (∀ k, ∃ s', deltree 0 (k + 3) s tmp = .done s' ∧ Leads s' cg tmp 8 ∧ ¬ Empty s' 8) := by
  obtain ⟨cg, nd, hc, hf, hi, o, hm⟩ := crowded_overfull
  have hR := crowded_tmp.reach
  have hd : isDots (long 97) = false := (isDots_iff _).2 (Good.proper (long_good (b := 97) (by decide)))
  refine ⟨crowded, cg, hR, hc, hi, fun init k => ?_, fun k => ?_⟩
  · obtain ⟨s', h1, -, -, h2⟩ := cleartmp_overfull hR hc hi o (by rw [hm]; decide) hf init k
    refine ⟨s', h1, fun he => ?_⟩
    rw [he _ _ ((h2 (long 97) 9).2 (List.mem_cons_self ..))] at hd; cases hd
  · obtain ⟨s', h1, -, h3, h2⟩ := deltree_overfull hR hc (p := tmp) (by decide) hi o (by rw [hm]; decide)
      ⟨_, List.mem_cons_self .., hd⟩ hf k
    refine ⟨s', h1, h3, fun he => ?_⟩
    rw [he _ _ ((h2 (long 97) 9).2 (List.mem_cons_self ..))] at hd; cases hd

end Verif.FsTools
