import Verif.FsShowLemmas

/-!
# What `ls` and `tree` are to print (property C104)

Specification: the paths below a directory, and drawings in which every line is followed by what is below it.
-/

namespace Verif.FsShow

open Verif.Path Verif.Fs Verif.Kernel Verif.FsTools

/-- A name added to a path: with a slash between unless the path ends with one. -/
def join (p n : Str) : Str := if p.getLast? = some 47 then p ++ n else p ++ 47 :: n

/-- Names added to a path. -/
def under (p : Str) : List Name → Str
  | [] => p
  | n :: ns => under (join p n) ns

/-- A drawing of what is below `p`: every line has the indentation `m` and the path of an entry of `p`, and what is below it follows at once,
one step further in. -/
inductive Nested : Nat → Str → List Line → Prop
  | nil {m : Nat} {p : Str} : Nested m p []
  | cons {m : Nat} {p : Str} {n : Name} {sub rest : List Line} :
      Nested (m + 1) (join p n) sub → Nested m p rest → Nested m p (⟨m, join p n⟩ :: (sub ++ rest))

/-- The lines show exactly what can be reached from inode `i`, which is at the path `p`, each path once, each indented by its depth. -/
structure Listing (s : State) (i : Nat) (p : Str) (m : Nat) (L : List Line) : Prop where
  all : ∀ l, l ∈ L ↔ ∃ n ns k, (∀ x ∈ n :: ns, isDots x = false) ∧ Walk s.fs.inodes i (n :: ns) k ∧ l = ⟨m + ns.length, under p (n :: ns)⟩
  once : L.Nodup
  nested : Nested m p L

/-- A tree that can be walked through: the type bits of every mode in it tell whether the object is a directory; every directory's names are C
strings shorter than 60000 bytes and there are at most `N`; no directory is `h` or more levels below `P`. -/
structure Shown (s : State) (P : List Name) (h N : Nat) : Prop where
  kind : ∀ q k nd, (∀ x ∈ q, isDots x = false) → P <+: q → Walk s.fs.inodes rootIno q k → s.fs.inodes k = some nd →
    (nd.mode &&& 0o170000#32 = 0o40000#32 ↔ nd.kind = .dir)
  dirs : ∀ q k nd, (∀ x ∈ q, isDots x = false) → P <+: q → Walk s.fs.inodes rootIno q k → s.fs.inodes k = some nd → nd.kind = .dir →
    (∀ e ∈ nd.ents, (0 : UInt8) ∉ e.1 ∧ e.1.length < 60000 ∧ e.2 < 2 ^ 64) ∧ nd.ents.length ≤ N ∧ q.length < P.length + h

/-! ## Paths -/

theorem mode_kind {nd : Inode} (h : nd.mode &&& 0o170000#32 = 0o40000#32 ↔ nd.kind = .dir) : modeIsDir nd.mode = nd.isDir := by
  simp only [modeIsDir, sFileType, sIFDIR]
  cases hb : nd.isDir with
  | true => rw [h.2 (isDir_iff.1 hb)]; rfl
  | false =>
    simp only [beq_eq_false_iff_ne, ne_eq]
    intro e
    have := isDir_iff.2 (h.1 e)
    rw [hb] at this; cases this

theorem Shown.child {s : State} {P : List Name} {h N : Nat} (p : Shown s P (h + 1) N) (n : Name) : Shown s (P ++ [n]) h N where
  kind q k nd gq hp w hk := p.kind q k nd gq ((List.prefix_append _ _).trans hp) w hk
  dirs q k nd gq hp w hk hd := by
    obtain ⟨a, b, c⟩ := p.dirs q k nd gq ((List.prefix_append _ _).trans hp) w hk hd
    exact ⟨a, b, by simp only [List.length_append, List.length_cons, List.length_nil]; omega⟩

theorem dots_proper {q : List Name} : (∀ x ∈ q, isDots x = false) ↔ ∀ x ∈ q, Proper x :=
  ⟨fun h m hm => (isDots_iff m).1 (h m hm), fun h m hm => (isDots_iff m).2 (h m hm)⟩

theorem join_eq (p n : Str) : join p n = child p n := rfl

theorem under_path {cg : Cage} (h : CwdOk cg.cwd) : ∀ (ns : List Name) {p : Str}, p ≠ [] → (∀ x ∈ ns, Good x) →
    cg.path (under p ns) = cg.path p ++ ns
  | [], p, _, _ => by simp [under]
  | n :: ns, p, hp, hn => by
    obtain ⟨h1, h2⟩ := child_path h hp (hn n (by simp))
    rw [under, join_eq, under_path h ns h2 (fun x hx => hn x (by simp [hx])), h1]; simp

theorem under_inj {cg : Cage} (h : CwdOk cg.cwd) {p : Str} (hp : p ≠ []) {a b : List Name} (ha : ∀ x ∈ a, Good x) (hb : ∀ x ∈ b, Good x)
    (e : under p a = under p b) : a = b := by
  have := under_path h a hp ha
  rw [e, under_path h b hp hb] at this
  exact (List.append_cancel_left this).symm

theorem walk_good {ino : Nat → Option Inode} {next : Nat} (T : Tree ino next) {d k : Nat} {ns : List Name} (w : Walk ino d ns k) :
    (∀ x ∈ ns, Proper x) → ∀ x ∈ ns, Good x := by
  induction w with
  | here => intro _ x hx; simp at hx
  | down a b m _ ih =>
    intro hp x hx
    rcases List.mem_cons.1 hx with rfl | hx
    · exact (T.ent a m (hp _ (by simp))).1
    · exact ih (fun y hy => hp y (by simp [hy])) x hx

/-! ## Outputs put together -/

theorem outs_mem {α : Type} {R : Name → List α → Prop} {M : Name → α → Prop} {L : List Name} {o : List α} (h : Outs R L o)
    (hM : ∀ n o, Proper n → R n o → ∀ l, l ∈ o ↔ M n l) (l : α) : l ∈ o ↔ ∃ n ∈ L, Proper n ∧ M n l := by
  induction h with
  | nil => simp
  | skip hn _ ih =>
    rw [ih]
    constructor
    · rintro ⟨n, a, b⟩; exact ⟨n, by simp [a], b⟩
    · rintro ⟨n, a, b, c⟩
      rcases List.mem_cons.1 a with rfl | a
      · exact absurd b hn
      · exact ⟨n, a, b, c⟩
  | cons hn hr _ ih =>
    rw [List.mem_append, ih, hM _ _ hn hr]
    constructor
    · rintro (h | ⟨n, a, b⟩)
      · exact ⟨_, by simp, hn, h⟩
      · exact ⟨n, by simp [a], b⟩
    · rintro ⟨n, a, b, c⟩
      rcases List.mem_cons.1 a with rfl | a
      · exact .inl c
      · exact .inr ⟨n, a, b, c⟩

theorem outs_nodup {α : Type} {R : Name → List α → Prop} {M : Name → α → Prop} {L : List Name} {o : List α} (h : Outs R L o)
    (hM : ∀ n o, Proper n → R n o → ∀ l, l ∈ o ↔ M n l) (hN : ∀ n o, R n o → o.Nodup) (hK : ∀ n n' l, M n l → M n' l → n = n')
    (hL : L.Nodup) : o.Nodup := by
  induction h with
  | nil => exact List.nodup_nil
  | skip _ _ ih => exact ih (List.nodup_cons.1 hL).2
  | cons hn hr h ih =>
    obtain ⟨h1, h2⟩ := List.nodup_cons.1 hL
    rw [List.nodup_append]
    refine ⟨hN _ _ hr, ih h2, ?_⟩
    rintro a ha b hb rfl
    obtain ⟨n', a1, -, a2⟩ := (outs_mem h hM a).1 hb
    exact h1 (hK _ _ a ((hM _ _ hn hr a).1 ha) a2 ▸ a1)

theorem outs_nested {R : Name → List Line → Prop} {m : Nat} {p : Str} {L : List Name} {o : List Line} (h : Outs R L o)
    (hR : ∀ n o, R n o → ∃ sub, o = ⟨m, join p n⟩ :: sub ∧ Nested (m + 1) (join p n) sub) : Nested m p o := by
  induction h with
  | nil => exact .nil
  | skip _ _ ih => exact ih
  | cons _ hr _ ih =>
    obtain ⟨sub, rfl, h1⟩ := hR _ _ hr
    exact .cons h1 ih

/-- What is printed for one entry. -/
def Block (s : State) (nd : Inode) (p : Str) (m : Nat) (n : Name) (o : List Line) : Prop :=
  ∃ sub k, o = ⟨m, join p n⟩ :: sub ∧ (n, k) ∈ nd.ents ∧ Listing s k (join p n) (m + 1) sub

theorem listing_of {s : State} (hR : Reach s) {cg : Cage} (hcw : CwdOk cg.cwd) {i : Nat} {nd : Inode} (hnd : s.fs.inodes i = some nd)
    (hd : nd.isDir) {p : Str} (hp : p ≠ []) {m : Nat} {o : List Line} (h : Outs (Block s nd p m) (nd.ents.map (·.1)) o) :
    Listing s i p m o := by
  have T := hR.inv.fs.tree
  have nodup := T.nodup hnd
  have hM : ∀ n o, Proper n → Block s nd p m n o → ∀ l, l ∈ o ↔ ∃ ns k, (∀ x ∈ n :: ns, isDots x = false) ∧ Walk s.fs.inodes i (n :: ns) k ∧
      l = ⟨m + ns.length, under p (n :: ns)⟩ := by
    rintro n o hn ⟨sub, k, rfl, hk, hl⟩ l
    rw [List.mem_cons, hl.all]
    constructor
    · rintro (rfl | ⟨n', ns, k', g, w, rfl⟩)
      · exact ⟨[], k, by simpa using (isDots_iff n).2 hn, .down hnd hd hk (.here _), rfl⟩
      · refine ⟨n' :: ns, k', ?_, .down hnd hd hk w, ?_⟩
        · intro x hx
          rcases List.mem_cons.1 hx with rfl | hx
          · exact (isDots_iff _).2 hn
          · exact g x hx
        · simp only [List.length_cons, Line.mk.injEq]
          exact ⟨by omega, rfl⟩
    · rintro ⟨ns, k', g, w, rfl⟩
      cases w with
      | down a b c w =>
        rw [hnd] at a; cases a
        have := (entGet_iff nodup).2 c
        rw [(entGet_iff nodup).2 hk] at this; cases this
        cases ns with
        | nil => exact .inl rfl
        | cons n' ns =>
          refine .inr ⟨n', ns, k', fun x hx => g x (by simp [List.mem_cons.1 hx]), w, ?_⟩
          simp only [List.length_cons, Line.mk.injEq]
          exact ⟨by omega, rfl⟩
  constructor
  · intro l
    rw [outs_mem h hM l]
    constructor
    · rintro ⟨n, -, -, ns, k, a, b, c⟩; exact ⟨n, ns, k, a, b, c⟩
    · rintro ⟨n, ns, k, a, b, c⟩
      refine ⟨n, ?_, (isDots_iff n).1 (a n (by simp)), ns, k, a, b, c⟩
      cases b with
      | down x y z w => rw [hnd] at x; cases x; exact List.mem_map.2 ⟨_, z, rfl⟩
  · refine outs_nodup h hM ?_ ?_ (T.nodup hnd)
    · rintro n o ⟨sub, k, rfl, hk, hl⟩
      refine List.nodup_cons.2 ⟨?_, hl.once⟩
      intro hm
      obtain ⟨n', ns, k', -, -, e⟩ := (hl.all _).1 hm
      simp only [Line.mk.injEq] at e
      omega
    · rintro n n' l ⟨ns, k, a, b, rfl⟩ ⟨ns', k', a', b', e⟩
      simp only [Line.mk.injEq] at e
      have := under_inj hcw hp (walk_good T b (dots_proper.1 a)) (walk_good T b' (dots_proper.1 a')) e.2
      exact (List.cons.inj this).1
  · refine outs_nested h ?_
    rintro n o ⟨sub, k, rfl, -, hl⟩
    exact ⟨sub, rfl, hl.nested⟩

theorem listing_leaf {s : State} {i : Nat} {nd : Inode} (hnd : s.fs.inodes i = some nd) (hd : nd.isDir = false) (p : Str) (m : Nat) :
    Listing s i p m [] where
  all l := by
    constructor
    · intro h; simp at h
    · rintro ⟨n, ns, k, -, w, -⟩
      cases w with
      | down a b c w => rw [hnd] at a; cases a; rw [hd] at b; cases b
  once := List.nodup_nil
  nested := .nil

theorem path_cwd {cg cg' : Cage} (h : cg'.cwd = cg.cwd) (p : Str) : cg'.path p = cg.path p := by simp only [Cage.path, h]

/-- `tree`, for trees of at most `h` levels. -/
theorem tree_spec {s0 : State} (hR0 : Reach s0) (c N : Nat) : ∀ (h k : Nat), h + N < k → ∀ (s : State) (cg : Cage) (p : Str) (i m : Nat) (nd : Inode)
    (P : List Name), Reach s → Refs s0 s → s.cages c = some cg → p ≠ [] → cg.path p = P → Walk s0.fs.inodes rootIno P i →
    s0.fs.inodes i = some nd → nd.isDir → Shown s0 P h N → h ≤ free cg.fds →
    ∃ s' L, tree c k s p m = .done s' L ∧ Reach s' ∧ Eqv s s' ∧ Listing s0 i p m L := by
  intro h
  induction h with
  | zero =>
    intro k _ s cg p i m nd P hR _ hc _ hP w hnd hd hpl _
    have gP : ∀ x ∈ P, Proper x := by rw [← hP]; exact fun x hx => Good.proper (hR.inv.gp hc _ x hx)
    have := (hpl.dirs P i nd (dots_proper.2 gP) (List.prefix_refl _) w hnd (isDir_iff.1 hd)).2.2
    omega
  | succ h ih =>
    intro k hk s cg p i m nd P hR hrefs hc hp hP w hnd hd hpl hfree
    obtain ⟨k, rfl⟩ : ∃ k', k = k' + 1 := ⟨k - 1, by omega⟩
    have gP : ∀ x ∈ P, Proper x := by rw [← hP]; exact fun x hx => Good.proper (hR.inv.gp hc _ x hx)
    obtain ⟨hs, hN, -⟩ := hpl.dirs P i nd (dots_proper.2 gP) (List.prefix_refl _) w hnd (isDir_iff.1 hd)
    have hkd := mode_kind (hpl.kind P i nd (dots_proper.2 gP) (List.prefix_refl _) w hnd)
    have hcw := (hR.inv.cage c cg hc).2.2
    obtain ⟨nd1, hnd1, hb⟩ := hrefs.get' hnd
    have hlead : Leads s cg p i := by unfold Leads; rw [hP, hrefs.walk]; exact w
    obtain ⟨par, hr, -⟩ := hR.inv.walk_found hc hlead
    have hstat : (step s c (.stat p)).2 = { ret := .ok 0, stat := some (statOf i nd1) } := by
      simp only [step, hc, Fs.stat, hr, hnd1]
    have hmd : modeIsDir (statOf i nd1).mode = true := by
      rw [← hd, ← hkd, ← (bare_eq hb).2.1]; rfl
    have hsh : Shows (fun s q d => if d then (tree c k s q (m + 1)).after [⟨m, q⟩] else .done s [⟨m, q⟩]) c p s0 nd h cg.cwd
        (Block s0 nd p m) := by
      intro s' cg' n j kd hR' hrefs' hc' hcwd hfree' hj hn hkd'
      obtain ⟨hgood, -⟩ := hR0.inv.fs.tree.ent hnd hj hn
      obtain ⟨e1, e2⟩ := child_path hcw hp hgood
      have wj : Walk s0.fs.inodes rootIno (P ++ [n]) j := w.snoc hnd hd hj
      cases hb : kd.isDir with
      | true =>
        obtain ⟨s2, L, a1, a2, a3, a4⟩ := ih k (by omega) s' cg' (child p n) j (m + 1) kd (P ++ [n]) hR' hrefs' hc' e2
          (by rw [path_cwd hcwd, e1, hP]) wj hkd' hb (hpl.child n) hfree'
        refine ⟨s2, ⟨m, child p n⟩ :: L, ?_, a2, a3, L, j, rfl, hj, a4⟩
        simp only [if_true, a1, Run.after, List.singleton_append]
      | false =>
        exact ⟨s', [⟨m, child p n⟩], by simp, hR', ⟨rfl, rfl, rfl⟩, [], j, rfl, hj, listing_leaf hkd' hb _ _⟩
    obtain ⟨s', o, v1, v2, v3, v4⟩ := visit_shows hsh hR hrefs hc hp hP hfree w hnd hd
      (fun n j kd hj hn hkd' => mode_kind (hpl.kind (P ++ [n]) j kd (dots_proper.2 (by
        intro x hx
        rcases List.mem_append.1 hx with hx | hx
        · exact gP x hx
        · rw [List.mem_singleton.1 hx]; exact hn)) (List.prefix_append _ _) (w.snoc hnd hd hj) hkd')) hs (k := k) (by omega)
    refine ⟨s', o, ?_, v2, v3, listing_of hR0 hcw hnd hd hp v4⟩
    simp only [tree, hstat, hmd, if_true]
    exact v1

end Verif.FsShow
