import Verif.FsCmd
import Verif.FsToolsProps
import Verif.HostCopyLemmas

/-! # The command line of the file system tool (property C109) -/

namespace Verif.FsCmd
open Verif.Path Verif.Fs Verif.Kernel Verif.FsTools Verif.HostCopy

/-! ## Specification -/

/-- Between `s` and `s'` the pairs of a path and the object it led to that satisfy `gone` disappeared, and no other.  Directories that still have a
path are directories with the same mode; other objects that still have a path or are open kept everything but the number of their names. -/
structure Lost (gone : List Name → Nat → Prop) (s s' : State) : Prop where
  paths : ∀ q k, Plainly q → (Walk s'.fs.inodes rootIno q k ↔ Walk s.fs.inodes rootIno q k ∧ ¬ gone q k)
  dirs : ∀ q k nd, Plainly q → Walk s'.fs.inodes rootIno q k → s.fs.inodes k = some nd → nd.kind = .dir →
    ∃ nd', s'.fs.inodes k = some nd' ∧ nd'.kind = .dir ∧ nd'.mode = nd.mode
  files : ∀ k nd, s.fs.inodes k = some nd → nd.kind ≠ .dir → (0 < nd.ref ∨ ∃ q, Plainly q ∧ Walk s'.fs.inodes rootIno q k) →
    ∃ l, s'.fs.inodes k = some { nd with link := l } ∧ bytes s' k = bytes s k

/-- The object is not a directory and one of these words is a path to it. -/
def Named (cg : Cage) (s : State) (ps : List Str) (q : List Name) (k : Nat) : Prop :=
  ¬ IsDir s k ∧ ∃ p ∈ ps, p ≠ [] ∧ cg.path p = q

/-- The directories that hold the names given are writable. -/
def Writable (cg : Cage) (s : State) (ps : List Str) : Prop :=
  ∀ p ∈ ps, ∀ ns n d nd, cg.path p = ns ++ [n] → Walk s.fs.inodes rootIno ns d → s.fs.inodes d = some nd → nd.mode &&& 0o222#32 ≠ 0#32

/-! ## Lemmas -/

theorem Lost.refl (s : State) {gone : List Name → Nat → Prop} (h : ∀ q k, Plainly q → Walk s.fs.inodes rootIno q k → ¬ gone q k) :
    Lost gone s s where
  paths q k hq := ⟨fun w => ⟨w, h q k hq w⟩, fun w => w.1⟩
  dirs _ _ nd _ _ h hd := ⟨nd, h, hd, rfl⟩
  files _ nd h _ _ := ⟨nd.link, h, rfl⟩

theorem walk_node {s : State} (hR : Reach s) {q : List Name} {k : Nat} (hq : Plainly q) (w : Walk s.fs.inodes rootIno q k) :
    ∃ nd, s.fs.inodes k = some nd :=
  Walk.exists hR.inv.fs.tree w ((plainly_iff q).1 hq) (root_exists hR)

/-- A kind stays. -/
theorem Lost.isDir {g : List Name → Nat → Prop} {s s' : State} (h : Lost g s s') (hR : Reach s) {q : List Name} {k : Nat} (hq : Plainly q)
    (w : Walk s'.fs.inodes rootIno q k) : IsDir s' k ↔ IsDir s k := by
  obtain ⟨nd, hnd⟩ := walk_node hR hq ((h.paths q k hq).1 w).1
  by_cases hd : nd.kind = .dir
  · obtain ⟨nd', a, b, -⟩ := h.dirs q k nd hq w hnd hd
    exact ⟨fun _ => ⟨nd, hnd, hd⟩, fun _ => ⟨nd', a, b⟩⟩
  · obtain ⟨l, a, -⟩ := h.files k nd hnd hd (.inr ⟨q, hq, w⟩)
    constructor
    · rintro ⟨x, e, e'⟩; rw [a] at e; cases e; exact absurd e' hd
    · rintro ⟨x, e, e'⟩; rw [hnd] at e; cases e; exact absurd e' hd

theorem Lost.trans {g g' g'' : List Name → Nat → Prop} {s s' s'' : State} (h : Lost g s s') (h' : Lost g' s' s'')
    (hg : ∀ q k, Plainly q → Walk s.fs.inodes rootIno q k → (g'' q k ↔ g q k ∨ (Walk s'.fs.inodes rootIno q k ∧ g' q k))) : Lost g'' s s'' where
  paths q k hq := by
    rw [h'.paths q k hq]
    constructor
    · rintro ⟨a, b⟩
      have := (h.paths q k hq).1 a
      refine ⟨this.1, fun x => ?_⟩
      rcases (hg q k hq this.1).1 x with x | x
      · exact this.2 x
      · exact b x.2
    · rintro ⟨a, b⟩
      have w := (h.paths q k hq).2 ⟨a, fun x => b ((hg q k hq a).2 (.inl x))⟩
      exact ⟨w, fun x => b ((hg q k hq a).2 (.inr ⟨w, x⟩))⟩
  dirs q k nd hq w hk hd := by
    obtain ⟨nd1, a1, a2, a3⟩ := h.dirs q k nd hq ((h'.paths q k hq).1 w).1 hk hd
    obtain ⟨nd2, b1, b2, b3⟩ := h'.dirs q k nd1 hq w a1 a2
    exact ⟨nd2, b1, b2, b3.trans a3⟩
  files k nd hk hd hx := by
    obtain ⟨l, a1, a2⟩ := h.files k nd hk hd (hx.imp id fun ⟨q, hq, w⟩ => ⟨q, hq, ((h'.paths q k hq).1 w).1⟩)
    obtain ⟨l', b1, b2⟩ := h'.files k _ a1 hd hx
    exact ⟨l', b1, b2.trans a2⟩

theorem path_plain {s : State} (hR : Reach s) {c : Nat} {cg : Cage} (hc : s.cages c = some cg) (p : Str) : Plainly (cg.path p) := by
  refine (plainly_iff _).2 fun m hm => ?_
  exact Good.proper (hR.inv.gp hc p m hm)

theorem not_dir {s : State} {i : Nat} {nd : Inode} (h : s.fs.inodes i = some nd) (hd : ¬ IsDir s i) : nd.isDir = false := by
  cases hb : nd.isDir with
  | false => rfl
  | true => exact absurd ⟨nd, h, isDir_iff.1 hb⟩ hd

/-- One argument of `rm`. -/
theorem rm_one {s : State} (hR : Reach s) {c : Nat} {cg : Cage} (hc : s.cages c = some cg) {p : Str} (hw : Writable cg s [p]) :
    ∃ s', call s c (.unlink p) = .done s' ∧ Reach s' ∧ s'.cages = s.cages ∧ Lost (Named cg s [p]) s s' := by
  have T := hR.inv.fs.tree
  by_cases hx : p ≠ [] ∧ ∃ i, Leads s cg p i ∧ ¬ IsDir s i
  · obtain ⟨hp, i, hi, hd⟩ := hx
    obtain ⟨nd, hnd⟩ := hR.inv.leads_exists hc hi
    have hf := not_dir hnd hd
    rcases snoc_cases (cg.path p) with e | ⟨ns, n, e⟩
    · unfold Leads at hi
      rw [e] at hi
      cases hi
      obtain ⟨r, hr, hrd⟩ := T.root
      rw [hr] at hnd; cases hnd; simp [hf] at hrd
    · have hi' : Walk s.fs.inodes rootIno (ns ++ [n]) i := by rw [← e]; exact hi
      obtain ⟨d, pd, wd, hpd, -, -⟩ := hi'.split
      have hwr := hw p (by simp) ns n d pd e wd hpd
      obtain ⟨s', h1, h2⟩ := unlink_cut hR hc hp hi hnd hf e wd hpd hwr
      have gns : Plainly ns := fun m hm => path_plain hR hc p m (by rw [e]; simp [hm])
      have hA : ∀ q k, Walk s.fs.inodes rootIno q k → (ns ++ [n] <+: q ↔ Named cg s [p] q k) := by
        intro q k w
        constructor
        · rintro ⟨t, rfl⟩
          obtain ⟨x, w1, w2⟩ := Walk_cut _ w
          have := walk_fun T w1 hi'; subst this
          cases w2 with
          | here => exact ⟨hd, p, by simp, hp, by simp [e]⟩
          | down a b _ _ => rw [hnd] at a; cases a; rw [hf] at b; cases b
        · rintro ⟨-, p', hp', -, rfl⟩
          rw [List.mem_singleton.1 hp', e]
          exact List.prefix_rfl
      refine ⟨s', h1, h2.reach, h2.cages, ?_, ?_, ?_⟩
      · intro q k hq
        rw [h2.cut.paths q k ((plainly_iff q).1 hq)]
        exact ⟨fun ⟨a, b⟩ => ⟨a, fun x => b ((hA q k a).2 x)⟩, fun ⟨a, b⟩ => ⟨a, fun x => b ((hA q k a).1 x)⟩⟩
      · intro q k kd hq w hk hkd
        obtain ⟨w0, hn⟩ := (h2.cut.paths q k ((plainly_iff q).1 hq)).1 w
        by_cases e1 : q = ns
        · subst e1
          have := walk_fun T w0 wd; subst this
          rw [hpd] at hk; cases hk
          exact ⟨_, h2.par, hkd, rfl⟩
        · exact ⟨kd, h2.cut.dirs q k kd ((plainly_iff q).1 hq) hn e1 w0 hk (isDir_iff.2 hkd), hkd, rfl⟩
      · intro k kd hk hkd hx
        have hkd' : kd.isDir = false := not_dir hk (by rintro ⟨x, a, b⟩; rw [hk] at a; cases a; exact hkd b)
        obtain ⟨l, a, b⟩ := h2.cut.files k kd hk hkd' (hx.imp id fun ⟨q, hq, w⟩ =>
          ⟨q, (plainly_iff q).1 hq, ((h2.cut.paths q k ((plainly_iff q).1 hq)).1 w).2, ((h2.cut.paths q k ((plainly_iff q).1 hq)).1 w).1⟩)
        exact ⟨l, a, by simp only [bytes, b]⟩
  · have hno : ∀ q k, Plainly q → Walk s.fs.inodes rootIno q k → ¬ Named cg s [p] q k := by
      rintro q k - w ⟨hd, p', hp', hne, rfl⟩
      rw [List.mem_singleton] at hp'; subst hp'
      exact hx ⟨hne, k, w, hd⟩
    have herr : ∃ e, (step s c (.unlink p)).2.ret = .err e := by
      by_cases hp : p = []
      · exact ⟨.ENOENT, by simp [step, hc, nonEmpty, hp, Out.r]⟩
      obtain ⟨pl, r, hr, hat, -⟩ := found_exists hR hc p
      rw [unlink_answer hR hc hp hat]
      cases pl with
      | root => exact ⟨_, rfl⟩
      | free => exact ⟨_, rfl⟩
      | nowhere => exact ⟨_, rfl⟩
      | object d n i =>
        obtain ⟨ns, e, wd, ⟨pd, hpd, hpk⟩, hent⟩ := hat
        have hl : Leads s cg p i := by
          unfold Leads; rw [e]; exact wd.snoc hpd (isDir_iff.2 hpk) ((entry_iff hpd).1 hent)
        have hd : IsDir s i := by
          by_cases h : IsDir s i
          · exact h
          · exact absurd ⟨hp, i, hl, h⟩ hx
        obtain ⟨nd, hnd, hk⟩ := hd
        exact ⟨.EISDIR, by simp [unlinkAnswer, kindOf, hnd, hk]⟩
    obtain ⟨e, he⟩ := herr
    have hsame := failed_call_changes_nothing_partial hR (op := .unlink p) rfl (by
      intro cg' p' ns n d nd hc' hp' e1 wd hd
      cases hp'
      rw [hc] at hc'; cases hc'
      exact hw p (by simp) ns n d nd e1 wd hd) he
    exact ⟨s, by simp only [call, he, hsame, reduceCtorEq, if_false], hR, rfl, .refl s hno⟩

/-! ## Theorems -/

/-- C109.  `rm` with any list of words: it returns, and exactly the names that were given and that are not names of directories are gone, in whatever order
they were given and however many of them were wrong.  Everything that has another name or is open kept its bytes and attributes; no descriptor changed.
Partial: the directories that hold the names must be writable (a refused unlink spoils a count, C25 `failed_unlink_violated`). -/
theorem rm_exact_partial {c : Nat} {cg : Cage} : ∀ {ps : List Str} {s : State} (_ : Reach s) (_ : s.cages c = some cg) (_ : Writable cg s ps),
    ∃ s', rm c ps s = .done s' ∧ Reach s' ∧ s'.cages = s.cages ∧ Lost (Named cg s ps) s s' := by
  intro ps
  induction ps with
  | nil => intro s hR _ _; exact ⟨s, rfl, hR, rfl, .refl s (by rintro q k - - ⟨-, p, hp, -⟩; cases hp)⟩
  | cons p ps ih =>
    intro s hR hc hw
    obtain ⟨s1, a1, a2, a3, a4⟩ := rm_one hR hc (p := p) (fun x hx => hw x (by rw [List.mem_singleton.1 hx]; simp))
    have hc1 : s1.cages c = some cg := by rw [a3, hc]
    have hw1 : Writable cg s1 ps := by
      intro x hx ns n d nd e wd hd
      have gns : Plainly ns := fun m hm => path_plain hR hc x m (by rw [e]; simp [hm])
      have w0 := ((a4.paths ns d gns).1 wd).1
      obtain ⟨nd0, h0⟩ := walk_node hR gns w0
      have := hw x (by simp [hx]) ns n d nd0 e w0 h0
      by_cases hk : nd0.kind = .dir
      · obtain ⟨nd', b1, -, b3⟩ := a4.dirs ns d nd0 gns wd h0 hk
        rw [hd] at b1; cases b1; rw [b3]; exact this
      · obtain ⟨l, b1, -⟩ := a4.files d nd0 h0 hk (.inr ⟨ns, gns, wd⟩)
        rw [hd] at b1; cases b1; exact this
    obtain ⟨s2, b1, b2, b3, b4⟩ := ih a2 hc1 hw1
    refine ⟨s2, ?_, b2, b3.trans a3, a4.trans b4 ?_⟩
    · simp only [rm, forEach, a1]; exact b1
    · intro q k hq w
      constructor
      · rintro ⟨hd, p', hp', hne, e⟩
        by_cases hg : Named cg s [p] q k
        · exact .inl hg
        · right
          have w1 := (a4.paths q k hq).2 ⟨w, hg⟩
          refine ⟨w1, fun x => hd ((a4.isDir hR hq w1).1 x), ?_⟩
          rcases List.mem_cons.1 hp' with rfl | h
          · exact absurd ⟨hd, p', by simp, hne, e⟩ hg
          · exact ⟨p', h, hne, e⟩
      · rintro (⟨hd, p', hp', hne, e⟩ | ⟨w1, hd, p', hp', hne, e⟩)
        · exact ⟨hd, p', by rw [List.mem_singleton.1 hp']; simp, hne, e⟩
        · exact ⟨fun x => hd ((a4.isDir hR hq w1).2 x), p', by simp [hp'], hne, e⟩

/-- C109.  `mkdir` with any list of words: it returns; every path leads where it led; the paths that are new are among those given and are directories
anybody may use; everything there was kept its mode and bytes; no descriptor changed; and a word whose holder was there as a directory leads somewhere now. -/
theorem mkdir_exact {c : Nat} {cg : Cage} : ∀ {ps : List Str} {s : State} (_ : Reach s) (_ : s.cages c = some cg),
    ∃ s', mkdir c ps s = .done s' ∧ Reach s' ∧ s'.cages = s.cages ∧ Grown (fun q => ∃ p ∈ ps, p ≠ [] ∧ cg.path p = q) (fun _ => False) s s' ∧
      (∀ q k, Plainly q → Walk s'.fs.inodes rootIno q k → Walk s.fs.inodes rootIno q k ∨
        ∃ nd, s'.fs.inodes k = some nd ∧ nd.kind = .dir ∧ nd.mode = 0o40777#32) ∧
      ∀ p ∈ ps, p ≠ [] → ∀ ns n d, cg.path p = ns ++ [n] → Walk s.fs.inodes rootIno ns d → IsDir s d → ∃ i, Leads s' cg p i := by
  intro ps
  induction ps with
  | nil => intro s hR _; exact ⟨s, rfl, hR, rfl, .refl _ _ s, fun _ _ _ w => .inl w, nofun⟩
  | cons p ps ih =>
    intro s hR hc
    have one : ∃ s1, call s c (.mkdir p sIRWXA) = .done s1 ∧ Reach s1 ∧ s1.cages = s.cages ∧
        Grown (fun q => p ≠ [] ∧ cg.path p = q) (fun _ => False) s s1 ∧
        (∀ q k, Plainly q → Walk s1.fs.inodes rootIno q k → Walk s.fs.inodes rootIno q k ∨
          ∃ nd, s1.fs.inodes k = some nd ∧ nd.isDir ∧ nd.mode = 0o40777#32) ∧
        (p ≠ [] → ∀ ns n d, cg.path p = ns ++ [n] → Walk s.fs.inodes rootIno ns d → IsDir s d → ∃ i, Leads s1 cg p i) := by
      by_cases hp : p = []
      · have e : step s c (.mkdir p sIRWXA) = (s, .r (.err .ENOENT)) := by simp [step, hc, nonEmpty, hp]
        exact ⟨s, by simp [call, e, Out.r], hR, rfl, .refl _ _ s, fun _ _ _ w => .inl w, fun h => absurd hp h⟩
      · rcases mkdir_not_panic hR hc hp with ⟨v, hok⟩ | ⟨e, he⟩
        · obtain ⟨ps, m, d, pd, e1, e2, e3, e4, e5⟩ := mkdir_ok_free hR hc hp hok
          obtain ⟨s1, new, nd, hst, hR1, hcg, hG, wn, hn, hnd, hmode⟩ := mkdir_free hR hc hp e1 e2 e3 e4 e5
          refine ⟨s1, by simp [call, hst, Out.r], hR1, hcg, hG.mono (fun q hq => ⟨hp, by rw [hq, e1]⟩) (fun _ h => h), ?_, ?_⟩
          · intro q k hq w
            rcases hG.fresh q k ((plainly_iff q).1 hq) w with g | g
            · exact .inl g
            · subst g
              have := walk_fun hR1.inv.fs.tree w wn; subst this
              exact .inr ⟨nd, hn, hnd, hmode⟩
          · intro _ _ _ _ _ _ _
            exact ⟨new, by unfold Leads; rw [e1]; exact wn⟩
        · refine ⟨s, by simp [call, he, Out.r], hR, rfl, .refl _ _ s, fun _ _ _ w => .inl w, ?_⟩
          intro _ ns n d e1 wd hd
          by_cases hl : ∃ i, Leads s cg p i
          · exact hl
          · obtain ⟨pd, hpd, hk⟩ := hd
            obtain ⟨s1, new, nd, hst, -⟩ := mkdir_free hR hc hp e1 wd hpd (isDir_iff.2 hk) (fun i hi => hl ⟨i, hi⟩)
            rw [hst] at he; cases he
    obtain ⟨s1, a1, a2, a3, a4, a5, a6⟩ := one
    obtain ⟨s2, b1, b2, b3, b4, b5, b6⟩ := ih a2 (by rw [a3, hc] : s1.cages c = some cg)
    refine ⟨s2, ?_, b2, b3.trans a3, ?_, ?_, ?_⟩
    · simp only [mkdir, forEach, a1]; exact b1
    · exact (a4.mono (fun q ⟨h1, h2⟩ => ⟨p, by simp, h1, h2⟩) (fun _ h => h)).trans
        (b4.mono (fun q ⟨x, h1, h2⟩ => ⟨x, by simp [h1], h2⟩) (fun _ h => h))
    · intro q k hq w
      rcases b5 q k hq w with g | g
      · rcases a5 q k hq g with g | ⟨nd, g1, g2, g3⟩
        · exact .inl g
        · obtain ⟨nd', h1, h2, h3⟩ := b4.dir k nd g1 g2
          exact .inr ⟨nd', h1, isDir_iff.1 h2, h3.trans g3⟩
      · exact .inr g
    · intro x hx hne ns n d e wd hd
      rcases List.mem_cons.1 hx with rfl | hx
      · obtain ⟨i, hi⟩ := a6 hne ns n d e wd hd
        exact ⟨i, b4.keeps _ _ hi⟩
      · obtain ⟨nd, h1, h2⟩ := hd
        obtain ⟨nd', h3, h4, -⟩ := a4.dir d nd h1 (isDir_iff.2 h2)
        exact b6 x hx hne ns n d e (a4.keeps _ _ wd) ⟨nd', h3, isDir_iff.1 h4⟩

/-- One argument of `rmdir`. -/
theorem rmdir_took {s : State} (hR : Reach s) {c : Nat} {cg : Cage} (hc : s.cages c = some cg) {p : Str} (hp : p ≠ []) {ns : List Name} {n : Name}
    {d i : Nat} {pd nd : Inode} (hP : cg.path p = ns ++ [n]) (wd : Walk s.fs.inodes rootIno ns d) (hpd : s.fs.inodes d = some pd)
    (hw : pd.mode &&& 0o222#32 ≠ 0#32) (hi : Leads s cg p i) (hnd : s.fs.inodes i = some nd) (hd : nd.kind = .dir) (he : Empty s i)
    (hty : nd.mode &&& 0o170000#32 = 0o40000#32) :
    ∃ s', rmdirOne c s p = .done s' ∧ Reach s' ∧ s'.cages = s.cages ∧ Cut (fun q => cg.path p <+: q) (fun q => q = ns) s s' ∧
      ∃ pd', s'.fs.inodes d = some pd' ∧ pd'.kind = .dir ∧ pd'.mode = pd.mode := by
  have hd' := isDir_iff.2 hd
  have gP : ∀ m ∈ ns ++ [n], Proper m := by rw [← hP]; exact fun m hm => Good.proper (hR.inv.gp hc _ m hm)
  have gps : ∀ m ∈ ns, Proper m := fun m hm => gP m (by simp [hm])
  have wi : Walk s.fs.inodes rootIno (ns ++ [n]) i := by rw [← hP]; exact hi
  obtain ⟨hr, hdd, hf, hg, hne, h7, hl, -⟩ := found_at hR hc hi hP wd hpd
  obtain ⟨s1, a1, a2, a3, a4, a5⟩ := chmod_dir hR hc hi hnd hd'
  have cut1 := cut_attr hR gP wi hnd hd' (nd' := { nd with mode := (nd.mode &&& ~~~sIRWXA) ||| sIRWXA }) rfl rfl a5 a4
  have w1 : Walk s1.fs.inodes rootIno (ns ++ [n]) i := (cut1.paths _ i gP).2 ⟨wi, id⟩
  have nd1 : s1.fs.inodes i = some { nd with mode := (nd.mode &&& ~~~sIRWXA) ||| sIRWXA } := by rw [a5, upd_same]
  have hc1 : s1.cages c = some cg := by rw [a2]; exact hc
  obtain ⟨m1, m2⟩ := chmodded nd.mode
  have hps : ¬ ns ++ [n] <+: ns := not_prefix_snoc _ _
  have hpsne : ¬ ns = ns ++ [n] := fun e => hps (by rw [← e]; exact List.prefix_refl _)
  have wd1 : Walk s1.fs.inodes rootIno ns d := (cut1.paths _ d gps).2 ⟨wd, id⟩
  have hpd1 := cut1.dirs ns d pd gps id hpsne wd hpd hdd
  obtain ⟨s2, r1, r2, r3, r4, r5⟩ := rmdir_cut a3 hc1 hp (i := i) (by unfold Leads; rw [hP]; exact w1) nd1 hd' hP wd1 hpd1 hw
    (fun m j hm hpr => by
      have := he m j ((entry_iff hnd).2 hm)
      rw [(isDots_iff m).2 hpr] at this; cases this)
    (by rw [m2]; simp only [modeIsDir, sFileType, sIFDIR, hty]; rfl) m1
  refine ⟨s2, by simp only [rmdirOne, a1, r1], r3, r2.trans a2, ?_, ⟨_, r5, isDir_iff.1 hdd, rfl⟩⟩
  have B1 := cut1.weaken (A' := fun _ => False) (B' := fun q => q = ns ∨ q = ns ++ [n]) (fun _ _ _ _ => Iff.rfl)
    (fun _ _ _ _ _ _ _ _ e => .inr e)
  have B2 := r4.weaken (A' := fun q => ns ++ [n] <+: q) (B' := fun q => q = ns ∨ q = ns ++ [n])
    (fun _ _ _ _ => Iff.rfl) (fun _ _ _ _ _ _ _ _ e => .inl e)
  refine (B1.trans B2).weaken ?_ ?_
  · intro q j _ _; rw [hP]; simp
  · rintro q k nd _ _ _ _ hA (e | e)
    · exact e
    · exact absurd (by rw [hP, e]; exact List.prefix_rfl) hA

/-- C109.  `rmdir` of an empty directory that a writable directory holds: it is gone, whatever its own permissions were, and nothing else.  Partial: its mode
word must carry the directory type (C15, `rmdir_type_bits_violated`). -/
theorem rmdir_one_partial {s : State} (hR : Reach s) {c : Nat} {cg : Cage} (hc : s.cages c = some cg) {p : Str} (hp : p ≠ []) {ns : List Name} {n : Name}
    {d i : Nat} {pd nd : Inode} (hP : cg.path p = ns ++ [n]) (wd : Walk s.fs.inodes rootIno ns d) (hpd : s.fs.inodes d = some pd)
    (hw : pd.mode &&& 0o222#32 ≠ 0#32) (hi : Leads s cg p i) (hnd : s.fs.inodes i = some nd) (hd : nd.kind = .dir) (he : Empty s i)
    (hty : nd.mode &&& 0o170000#32 = 0o40000#32) :
    ∃ s', rmdir c [p] s = .done s' ∧ Reach s' ∧ s'.cages = s.cages ∧ OnlyGone (fun q => cg.path p <+: q) ns s s' := by
  obtain ⟨s', h1, h2, h3, h4, -⟩ := rmdir_took hR hc hp hP wd hpd hw hi hnd hd he hty
  exact ⟨s', by simp only [rmdir, forEach, h1], h2, h3, h4.onlyGone⟩

/-- C109.  Which command lines are refused by aborting: a wrong number of arguments for `cp`, `update`, `ls` or `deltree`, and no other. -/
theorem parse_abort (w : Str) (args : List Str) : parse (w :: args) = .abort ↔
    ((w = wCp ∨ w = wUpdate) ∧ args.length ≠ 2) ∨ ((w = wLs ∨ w = wDeltree) ∧ args.length ≠ 1) := by
  have two : ∀ {f : Str → Str → Cmd}, (∀ a b, f a b ≠ .abort) →
      ((match args with | [a, b] => f a b | _ => .abort) = .abort ↔ args.length ≠ 2) := by
    intro f hf
    match args with
    | [] => simp
    | [a] => simp
    | [a, b] => simp [hf]
    | a :: b :: c :: l => simp
  have one : ∀ {f : Str → Cmd}, (∀ a, f a ≠ .abort) →
      ((match args with | [a] => f a | _ => .abort) = .abort ↔ args.length ≠ 1) := by
    intro f hf
    match args with
    | [] => simp
    | [a] => simp [hf]
    | a :: b :: l => simp
  by_cases e : w ∈ [wHelp, wUsage, wCp, wUpdate, wLs, wTree, wFormat, wDeltree, wRm, wMkdir, wRmdir]
  · simp only [List.mem_cons, List.not_mem_nil, or_false] at e
    rcases e with rfl | rfl | rfl | rfl | rfl | rfl | rfl | rfl | rfl | rfl | rfl
    · simp [parse, wHelp, wCp, wUpdate, wLs, wDeltree]
    · simp [parse, wUsage, wCp, wUpdate, wLs, wDeltree]
    · have : parse (wCp :: args) = (match args with | [a, b] => .cp a b | _ => .abort) := rfl
      rw [this, two (f := Cmd.cp) nofun]; simp [wCp, wUpdate, wLs, wDeltree]
    · have : parse (wUpdate :: args) = (match args with | [a, b] => .update a b | _ => .abort) := rfl
      rw [this, two (f := Cmd.update) nofun]; simp [wCp, wUpdate, wLs, wDeltree]
    · have : parse (wLs :: args) = (match args with | [a] => .ls a | _ => .abort) := rfl
      rw [this, one (f := Cmd.ls) nofun]; simp [wCp, wUpdate, wLs, wDeltree]
    · have : parse (wTree :: args) = (match args with | a :: _ => .tree a | [] => .tree [slash]) := rfl
      rw [this]; cases args <;> simp [wTree, wCp, wUpdate, wLs, wDeltree]
    · simp [parse, wFormat, wHelp, wUsage, wTree, wCp, wUpdate, wLs, wDeltree]
    · have : parse (wDeltree :: args) = (match args with | [a] => .deltree a | _ => .abort) := rfl
      rw [this, one (f := Cmd.deltree) nofun]; simp [wCp, wUpdate, wLs, wDeltree]
    · simp [parse, wRm, wFormat, wHelp, wUsage, wTree, wCp, wUpdate, wLs, wDeltree]
    · simp [parse, wMkdir, wRm, wFormat, wHelp, wUsage, wTree, wCp, wUpdate, wLs, wDeltree]
    · simp [parse, wRmdir, wMkdir, wRm, wFormat, wHelp, wUsage, wTree, wCp, wUpdate, wLs, wDeltree]
  · simp only [List.mem_cons, List.not_mem_nil, or_false, not_or] at e
    obtain ⟨e1, e2, e3, e4, e5, e6, e7, e8, e9, e10, e11⟩ := e
    simp [parse, e1, e2, e3, e4, e5, e6, e7, e8, e9, e10, e11]

/-- C109.  What each well-formed line asks for: the first word decides, the arguments keep their order, and no word that is not a command does anything. -/
theorem parse_exact (a b : Str) (l : List Str) : parse (wCp :: [a, b]) = .cp a b ∧ parse (wUpdate :: [a, b]) = .update a b ∧ parse [wLs, a] = .ls a ∧
    parse [wTree] = .tree [47] ∧ parse [wTree, a] = .tree a ∧ parse [wFormat] = .format ∧ parse [wDeltree, a] = .deltree a ∧ parse (wRm :: l) = .rm l ∧
    parse (wMkdir :: l) = .mkdir l ∧ parse (wRmdir :: l) = .rmdir l ∧ parse [] = .usage ∧ parse (wHelp :: l) = .usage ∧ parse (wUsage :: l) = .usage ∧
    (a ∉ [wHelp, wUsage, wCp, wUpdate, wLs, wTree, wFormat, wDeltree, wRm, wMkdir, wRmdir] → parse (a :: l) = .unknown) := by
  refine ⟨rfl, rfl, rfl, rfl, rfl, rfl, rfl, rfl, rfl, rfl, rfl, rfl, rfl, fun e => ?_⟩
  simp only [List.mem_cons, List.not_mem_nil, or_false, not_or] at e
  obtain ⟨e1, e2, e3, e4, e5, e6, e7, e8, e9, e10, e11⟩ := e
  simp [parse, e1, e2, e3, e4, e5, e6, e7, e8, e9, e10, e11]

/-- C109, violated: a command is not carried out when its arguments make no sense.  `format` takes none, but `format /tmp` formats the whole
file system; `tree` shows the first of its arguments and says nothing of the others. -/
theorem surplus_arguments_violated (args : List Str) (a : Str) : parse (wFormat :: args) = .format ∧ parse (wTree :: a :: args) = .tree a := by
  constructor <;> rfl

/-! ## Cases -/

/-- `/a` -/
def pA : Str := [47, 97]
/-- `/a/b` -/
def pAB : Str := [47, 97, 47, 98]
/-- `/a/f` -/
def pAF : Str := [47, 97, 47, 102]
/-- `/g` -/
def pG : Str := [47, 103]

/-- The state of a run that is done. -/
def end? : Run → Option State
  | .done s => some s
  | _ => none

/-- A directory `/a` with a directory `/a/b` of mode 0700 and a file `/a/f`, which has a second name `/g`. -/
def stock : State := run init [(0, .mkdir pA 0o755#32), (0, .mkdir pAB 0o700#32), (0, .openP pAF 0o101#32 0o600#32), (0, .close 3), (0, .link pAF pG)]

/-- The mode of what a path leads to. -/
def modeAt (s : State) (p : Str) : Option (BitVec 32) := (step s 0 (.stat p)).2.stat.map (·.mode)

/-- C109, violated: a directory that `rmdir` does not remove is as it was.  Here `/a` is not empty: it is not removed, but its permissions are those of a
directory that anybody may write.  The same happens to a file that is named by mistake. -/
theorem rmdir_failed_violated : modeAt stock pA = some 0o40755#32 ∧ (end? (rmdir 0 [pA] stock)).map (fun s => modeAt s pA) = some (some 0o40777#32) ∧
    modeAt stock pG = some 0o100600#32 ∧ (end? (rmdir 0 [pG] stock)).map (fun s => modeAt s pG) = some (some 0o100777#32) := by
  refine ⟨?_, ?_, ?_, ?_⟩ <;> decide +kernel

/-- `mkdir /a/b/c` before `/a/b/c/d` makes both; `rm` of a list with a directory, a file and a wrong word removes the file's name only. -/
example : (end? (mkdir 0 [pAB ++ [47, 99], [120, 47, 121], pAB ++ [47, 99, 47, 100]] stock)).map (fun s => modeAt s (pAB ++ [47, 99, 47, 100])) =
      some (some 0o40777#32) ∧
    (end? (rm 0 [pAB, pAF, [47, 122]] stock)).map (fun s => (modeAt s pAB, modeAt s pAF, modeAt s pG)) =
      some (some 0o40700#32, none, some 0o100600#32) ∧
    (end? (rmdir 0 [pAB] stock)).map (fun s => (modeAt s pAB, modeAt s pA)) = some (none, some 0o40755#32) := by
  refine ⟨?_, ?_, ?_⟩ <;> decide +kernel

theorem stock_reach : Reach stock := Reach.init.run _ (by decide +kernel)

theorem stock_shape : ∃ cg rd ad bd, stock.cages 0 = some cg ∧ cg.path pA = [[97]] ∧ cg.path pAB = [[97]] ++ [[98]] ∧ cg.path pAF = [[97]] ++ [[102]] ∧
    cg.path pG = [] ++ [[103]] ∧ stock.fs.inodes rootIno = some rd ∧ rd.mode &&& 0o222#32 ≠ 0#32 ∧ rd.isDir ∧ ([97], 9) ∈ rd.ents ∧ ([103], 11) ∈ rd.ents ∧
    stock.fs.inodes 9 = some ad ∧ ad.mode &&& 0o222#32 ≠ 0#32 ∧ ad.isDir ∧ ([98], 10) ∈ ad.ents ∧ ([102], 11) ∈ ad.ents ∧
    stock.fs.inodes 10 = some bd ∧ bd.kind = .dir ∧ bd.ents = [([46], 10), ([46, 46], 9)] ∧ bd.mode &&& 0o170000#32 = 0o40000#32 := by
  refine ⟨_, _, _, _, rfl, ?_, ?_, ?_, ?_, rfl, ?_, ?_, ?_, ?_, rfl, ?_, ?_, ?_, ?_, rfl, ?_, ?_, ?_⟩ <;> decide +kernel

/-- The hypotheses of `rm_exact_partial` hold of `rm /a/b /a/f /z`; so `/a/f` is gone and `/g` and `/a/b` are not. -/
example : ∃ cg s', stock.cages 0 = some cg ∧ rm 0 [pAB, pAF, [47, 122]] stock = .done s' ∧ (∀ k, ¬ Walk s'.fs.inodes rootIno [[97], [102]] k) ∧
    Walk s'.fs.inodes rootIno [[103]] 11 ∧ Walk s'.fs.inodes rootIno [[97], [98]] 10 := by
  obtain ⟨cg, rd, ad, bd, hc, -, e2, e3, -, hr, hrw, hrk, ha, hg, had, haw, hak, hb, hf, hbd, hbk, -, -⟩ := stock_shape
  have e4 : cg.path [47, 122] = [] ++ [[122]] := by
    have : (stock.cages 0).map (·.path [47, 122]) = some [[122]] := by decide +kernel
    rw [hc] at this; simpa using this
  have T := stock_reach.inv.fs.tree
  have hw : Writable cg stock [pAB, pAF, [47, 122]] := by
    intro p hp ns n d nd e wd hnd
    have wa : Walk stock.fs.inodes rootIno [[97]] 9 := .down hr hrk ha (.here _)
    simp only [List.mem_cons, List.not_mem_nil, or_false] at hp
    rcases hp with rfl | rfl | rfl
    · rw [e2] at e; obtain ⟨rfl, -⟩ := List.append_inj' e rfl
      have := walk_fun T wd wa; subst this
      rw [had] at hnd; cases hnd; exact haw
    · rw [e3] at e; obtain ⟨rfl, -⟩ := List.append_inj' e rfl
      have := walk_fun T wd wa; subst this
      rw [had] at hnd; cases hnd; exact haw
    · rw [e4] at e; obtain ⟨rfl, -⟩ := List.append_inj' e rfl
      have := walk_fun T wd (.here _); subst this
      rw [hr] at hnd; cases hnd; exact hrw
  obtain ⟨s', h1, -, -, h4⟩ := rm_exact_partial stock_reach hc hw
  have hd : ¬ IsDir stock 11 := by
    rintro ⟨nd, hnd, hk⟩
    have : (stock.fs.inodes 11).map (·.kind == .dir) = some false := by decide +kernel
    rw [hnd] at this; simp [hk] at this
  have wf : Walk stock.fs.inodes rootIno [[97], [102]] 11 := .down hr hrk ha (.down had hak hf (.here _))
  have pl : ∀ {q : List Name}, (∀ m ∈ q, Proper m) → Plainly q := fun h => (plainly_iff _).2 h
  refine ⟨cg, s', hc, h1, fun k w => ?_, ?_, ?_⟩
  · have := (h4.paths _ k (pl (by decide))).1 w
    have e := walk_fun T this.1 wf; subst e
    exact this.2 ⟨hd, pAF, by simp, by decide, by rw [e3]; rfl⟩
  · refine (h4.paths _ _ (pl (by decide))).2 ⟨.down hr hrk hg (.here _), ?_⟩
    rintro ⟨-, p, hp, -, e⟩
    simp only [List.mem_cons, List.not_mem_nil, or_false] at hp
    rcases hp with rfl | rfl | rfl
    · rw [e2] at e; cases e
    · rw [e3] at e; cases e
    · rw [e4] at e; cases e
  · refine (h4.paths _ _ (pl (by decide))).2 ⟨.down hr hrk ha (.down had hak hb (.here _)), ?_⟩
    rintro ⟨h, -⟩
    exact h ⟨bd, hbd, hbk⟩

/-- Those of `rmdir_one_partial` hold of `/a/b`, which its owner alone may use. -/
example : ∃ cg s', stock.cages 0 = some cg ∧ rmdir 0 [pAB] stock = .done s' ∧ (∀ k, ¬ Walk s'.fs.inodes rootIno [[97], [98]] k) ∧
    Walk s'.fs.inodes rootIno [[97], [102]] 11 := by
  obtain ⟨cg, rd, ad, bd, hc, -, e2, e3, -, hr, hrw, hrk, ha, hg, had, haw, hak, hb, hf, hbd, hbk, hbe, hbm⟩ := stock_shape
  obtain ⟨s', h1, -, -, h4⟩ := rmdir_one_partial stock_reach hc (p := pAB) (by decide) e2 (.down hr hrk ha (.here _)) had haw
    (by unfold Leads; rw [e2]; exact .down hr hrk ha (.down had hak hb (.here _))) hbd hbk
    (by
      intro m j h
      have := (entry_iff hbd).1 h
      rw [hbe] at this
      simp only [List.mem_cons, List.not_mem_nil, or_false, Prod.mk.injEq] at this
      rcases this with ⟨rfl, -⟩ | ⟨rfl, -⟩ <;> decide) hbm
  have pl : ∀ {q : List Name}, (∀ m ∈ q, Proper m) → Plainly q := fun h => (plainly_iff _).2 h
  refine ⟨cg, s', hc, h1, fun k w => ?_, ?_⟩
  · exact ((h4.paths _ k (pl (by decide))).1 w).2 (by rw [e2]; exact List.prefix_rfl)
  · exact (h4.paths _ _ (pl (by decide))).2 ⟨.down hr hrk ha (.down had hak hf (.here _)), by rw [e2]; decide⟩

end Verif.FsCmd
