import Verif.Path

/-!
# Path normalisation properties: C17, and the buffer half of C46
-/

namespace Verif.Path

/-! ## Specification -/

/-- A proper file name: not empty, no slash, not `.` or `..`. -/
def Good (n : Str) : Prop := n ≠ [] ∧ slash ∉ n ∧ n ≠ dot ∧ n ≠ dotdot

instance (n : Str) : Decidable (Good n) := by unfold Good; infer_instance

/-- The canonical string of an absolute path given by its names: `/a/b`, and `/` for the root. -/
def render (ns : List Str) : Str := if ns = [] then [slash] else ns.flatMap (fun n => slash :: n)

/-- Resolve the slash-separated segments of a path, starting from a directory given by
its names: empty and `.` segments stay, `..` goes up (and stays at the root), anything else goes
down. -/
def resolve : List Str → List Str → List Str
  | dir, [] => dir
  | dir, s :: ss =>
    if s = [] ∨ s = dot then resolve dir ss
    else if s = dotdot then resolve dir.dropLast ss
    else resolve (dir ++ [s]) ss

/-! ## Lemmas -/

theorem segs_noslash (n : Str) (h : slash ∉ n) : segs n = [n] := by
  induction n with
  | nil => rfl
  | cons c cs ih =>
    simp only [List.mem_cons, not_or] at h
    simp only [segs, if_neg (Ne.symm h.1), ih h.2]

theorem segs_ne_nil (p : Str) : segs p ≠ [] := by
  cases p with
  | nil => simp [segs]
  | cons c cs => simp only [segs]; (repeat' split) <;> simp

theorem segs_append (a b : Str) : segs (a ++ slash :: b) = segs a ++ segs b := by
  induction a with
  | nil => simp [segs]
  | cons c cs ih =>
    simp only [List.cons_append, segs, ih]
    split
    · rfl
    · have := segs_ne_nil cs
      cases h : segs cs with
      | nil => exact absurd h this
      | cons s ss => simp

theorem seg_noslash (p : Str) : ∀ s ∈ segs p, slash ∉ s := by
  induction p with
  | nil => simp [segs]
  | cons c cs ih =>
    simp only [segs]
    split
    · intro s hs; simp at hs; rcases hs with rfl | hs
      · simp
      · exact ih s hs
    · rename_i hc
      cases h : segs cs with
      | nil => simp; exact fun h => hc h.symm
      | cons s ss =>
        rw [h] at ih
        intro t ht
        simp at ht
        rcases ht with rfl | ht
        · simp; exact ⟨fun h => hc h.symm, ih s (by simp)⟩
        · exact ih t (by simp [ht])

theorem flat_getLast (ns : List Str) (n : Str) (h : Good n) :
    ((ns ++ [n]).flatMap (fun n => slash :: n)).getLast? ≠ some slash := by
  obtain ⟨h1, h2, _⟩ := h
  have hs : (ns ++ [n]).flatMap (fun n => slash :: n) =
      (ns.flatMap (fun n => slash :: n) ++ [slash]) ++ n := by simp
  rw [hs, List.getLast?_append]
  intro hl
  cases hn : n.getLast? with
  | none => simp at hn; exact h1 hn
  | some x =>
    rw [hn] at hl
    simp only [Option.some_or, Option.some.injEq] at hl
    exact h2 (hl ▸ List.mem_of_getLast? hn)

theorem push_render (ns : List Str) (hns : ∀ n ∈ ns, Good n) (n : Str) :
    push (render ns) n = render (ns ++ [n]) := by
  rcases List.eq_nil_or_concat ns with rfl | ⟨ms, m, rfl⟩
  · simp [push, render]
  · simp only [List.concat_eq_append] at *
    have hm := flat_getLast ms m (hns m (by simp))
    have h1 : ms ++ [m] ≠ [] := by simp
    have h2 : ms ++ [m] ++ [n] ≠ [] := by simp
    simp only [render, if_neg h1, if_neg h2, push, if_neg hm]
    simp

theorem dropWhile_noslash (n r : Str) (h : slash ∉ n) :
    (n ++ slash :: r).dropWhile (· != slash) = slash :: r := by
  induction n with
  | nil => simp
  | cons c cs ih =>
    simp only [List.mem_cons, not_or] at h
    have : c ≠ slash := fun e => h.1 e.symm
    simp [this, ih h.2]

theorem pop_render (ns : List Str) (hns : ∀ n ∈ ns, Good n) : pop (render ns) = render ns.dropLast := by
  rcases List.eq_nil_or_concat ns with rfl | ⟨ms, m, rfl⟩
  · decide
  · simp only [List.concat_eq_append] at *
    have hm := (hns m (by simp)).2.1
    have h1 : ms ++ [m] ≠ [] := by simp
    have hr : (render (ms ++ [m])).reverse =
        m.reverse ++ slash :: (ms.flatMap (fun n => slash :: n)).reverse := by
      simp [render, h1]
    have hm' : slash ∉ m.reverse := by simpa using hm
    simp only [pop, hr, dropWhile_noslash _ _ hm', List.dropLast_concat]
    rcases List.eq_nil_or_concat ms with rfl | ⟨ks, k, rfl⟩
    · simp [render]
    · simp only [List.concat_eq_append] at *
      have h2 : ks ++ [k] ≠ [] := by simp
      simp only [render, if_neg h2]
      cases hc : ((ks ++ [k]).flatMap (fun n => slash :: n)).reverse with
      | nil => simp at hc
      | cons x xs =>
        simp only
        rw [← List.reverse_eq_iff.2 hc.symm]

theorem resolve_good (ss : List Str) : ∀ dir, (∀ n ∈ dir, Good n) → (∀ s ∈ ss, slash ∉ s) →
    ∀ n ∈ resolve dir ss, Good n := by
  induction ss with
  | nil => intro dir h _; exact h
  | cons s ss ih =>
    intro dir h hs
    have hs' : ∀ s ∈ ss, slash ∉ s := fun t ht => hs t (by simp [ht])
    simp only [resolve]
    split
    · exact ih dir h hs'
    · split
      · exact ih _ (fun n hn => h n (List.dropLast_subset _ hn)) hs'
      · rename_i h1 h2
        refine ih _ ?_ hs'
        intro n hn
        simp at hn
        rcases hn with hn | rfl
        · exact h n hn
        · exact ⟨fun e => h1 (Or.inl e), hs n (by simp), fun e => h1 (Or.inr e), h2⟩

/-- The loop of `normpath` over the components of a list of segments. -/
theorem fold_resolve (ss : List Str) : ∀ dir, (∀ n ∈ dir, Good n) → (∀ s ∈ ss, slash ∉ s) →
    (ss.filterMap segComp).foldl normStep (render dir) = render (resolve dir ss) := by
  induction ss with
  | nil => intro dir _ _; rfl
  | cons s ss ih =>
    intro dir h hs
    have hs' : ∀ s ∈ ss, slash ∉ s := fun t ht => hs t (by simp [ht])
    simp only [List.filterMap_cons, segComp, resolve]
    by_cases h1 : s = []
    · simp only [h1, if_true, true_or]; exact ih dir h hs'
    · by_cases h2 : s = dot
      · simp only [h2, if_true, or_true, show dot ≠ [] by decide, if_false]; exact ih dir h hs'
      · by_cases h3 : s = dotdot
        · have ha : dotdot ≠ [] := by decide
          have hb : dotdot ≠ dot := by decide
          simp only [h3, ha, hb, if_false, if_true, or_self, List.foldl_cons, normStep]
          rw [pop_render _ h]
          exact ih _ (fun n hn => h n (List.dropLast_subset _ hn)) hs'
        · simp only [h1, h2, h3, if_false, or_self, List.foldl_cons, normStep]
          rw [push_render _ h _]
          refine ih _ ?_ hs'
          intro n hn
          simp at hn
          rcases hn with hn | rfl
          · exact h n hn
          · exact ⟨h1, hs n (by simp), h2, h3⟩

theorem segs_flat (ns : List Str) (h : ∀ n ∈ ns, Good n) :
    segs (ns.flatMap (fun n => slash :: n)) = [] :: ns := by
  have key : ∀ ns : List Str, (∀ n ∈ ns, Good n) → ∀ a : Str,
      segs (a ++ ns.flatMap (fun n => slash :: n)) = segs a ++ ns := by
    intro ns
    induction ns with
    | nil => intro _ a; simp
    | cons n ns ih =>
      intro h a
      have := ih (fun m hm => h m (by simp [hm])) (a ++ slash :: n)
      simp only [List.flatMap_cons]
      rw [show a ++ (slash :: n ++ ns.flatMap (fun n => slash :: n)) =
        (a ++ slash :: n) ++ ns.flatMap (fun n => slash :: n) by simp, this, segs_append,
        segs_noslash n (h n (by simp)).2.1]
      simp
  simpa [segs] using key ns h []

theorem resolve_append (ss ts : List Str) : ∀ dir, resolve dir (ss ++ ts) = resolve (resolve dir ss) ts := by
  induction ss with
  | nil => intro dir; rfl
  | cons s ss ih => intro dir; simp only [List.cons_append, resolve]; (repeat' split) <;> exact ih _

theorem resolve_names (ns : List Str) : ∀ dir, (∀ n ∈ ns, Good n) → resolve dir ns = dir ++ ns := by
  induction ns with
  | nil => intro dir _; simp [resolve]
  | cons n ns ih =>
    intro dir h
    obtain ⟨h1, _, h2, h3⟩ := h n (by simp)
    simp only [resolve, h1, h2, h3, or_self, if_false]
    rw [ih _ (fun m hm => h m (by simp [hm]))]
    simp

theorem segs_render (ns : List Str) (h : ∀ n ∈ ns, Good n) (dir : List Str) :
    resolve dir (segs (render ns)) = dir ++ ns := by
  by_cases hn : ns = []
  · subst hn
    simp [render, segs, resolve]
  · simp only [render, if_neg hn, segs_flat ns h]
    rw [show ([] : Str) :: ns = [[]] ++ ns from rfl, resolve_append]
    rw [show resolve dir [[]] = dir by simp [resolve]]
    exact resolve_names ns dir h

theorem isRelative_render (ns : List Str) : isRelative (render ns) = false := by
  cases ns with
  | nil => decide
  | cons n ns => simp [render, isRelative]

/-! ## C17 -/

/-- C17.  For every working directory and every path string, `normpath` gives the canonical
string of the directory reached by resolving the segments one by one. -/
theorem normpath_spec (dir : List Str) (hd : ∀ n ∈ dir, Good n) (p : Str) :
    normpath (render dir) p = render (resolve (if isRelative p then dir else []) (segs p)) := by
  unfold normpath components
  cases hr : isRelative p with
  | false =>
    simp only [Bool.false_eq_true, if_false, List.foldl_cons, normStep]
    exact fold_resolve (segs p) [] (by simp) (seg_noslash p)
  | true =>
    simp only [if_true]
    cases hs : segs p with
    | nil => exact absurd hs (segs_ne_nil p)
    | cons s ss =>
      have hns := seg_noslash p
      rw [hs] at hns
      simp only
      by_cases hdot : s = dot
      · have := fold_resolve ss dir hd (fun t ht => hns t (by simp [ht]))
        simp only [hdot, if_true, List.cons_append, List.nil_append, List.foldl_cons, normStep, resolve,
          or_true]
        exact this
      · have := fold_resolve (s :: ss) dir hd hns
        rw [if_neg hdot]
        rw [← this]
        congr 1
        simp only [List.filterMap_cons]
        cases segComp s <;> simp

/-- C17.  The result is absolute and made of proper names only: it begins with a slash,
and it is `/` or a sequence of `/name` with no empty, `.` or `..` name. -/
theorem normpath_canonical (dir : List Str) (hd : ∀ n ∈ dir, Good n) (p : Str) :
    ∃ ns, (∀ n ∈ ns, Good n) ∧ normpath (render dir) p = render ns ∧
      components (normpath (render dir) p) = .root :: ns.map .normal := by
  have hg : ∀ n ∈ resolve (if isRelative p then dir else []) (segs p), Good n := by
    apply resolve_good
    · split
      · exact hd
      · simp
    · exact seg_noslash p
  refine ⟨_, hg, normpath_spec dir hd p, ?_⟩
  rw [normpath_spec dir hd p]
  generalize resolve (if isRelative p then dir else []) (segs p) = ns at hg
  unfold components
  rw [isRelative_render]
  simp only [Bool.false_eq_true, if_false, List.cons.injEq, true_and]
  by_cases hn : ns = []
  · subst hn; decide
  · simp only [render, if_neg hn, segs_flat ns hg, List.filterMap_cons]
    have h0 : segComp [] = none := by decide
    rw [h0]
    simp only
    induction ns with
    | nil => exact absurd rfl hn
    | cons n ns ih =>
      obtain ⟨h1, _, h2, h3⟩ := hg n (by simp)
      simp only [List.filterMap_cons, segComp, h1, h2, h3, if_false, List.map_cons, List.cons.injEq,
        true_and]
      by_cases he : ns = []
      · subst he; rfl
      · exact ih (fun m hm => hg m (by simp [hm])) he

/-- C17.  Normalising twice changes nothing, whatever the working directory is the second
time. -/
theorem normpath_idempotent (dir dir' : List Str) (hd : ∀ n ∈ dir, Good n)
    (hd' : ∀ n ∈ dir', Good n) (p : Str) :
    normpath (render dir') (normpath (render dir) p) = normpath (render dir) p := by
  obtain ⟨ns, hg, he, _⟩ := normpath_canonical dir hd p
  rw [he, normpath_spec dir' hd', isRelative_render]
  simp [segs_render ns hg]

/-- C17.  A relative path means: the working directory, a slash, the path. -/
theorem normpath_relative (dir : List Str) (hd : ∀ n ∈ dir, Good n) (p : Str)
    (hr : isRelative p = true) :
    normpath (render dir) p = normpath (render []) (render dir ++ slash :: p) := by
  have hrel : isRelative (render dir ++ slash :: p) = false := by
    have := isRelative_render dir
    unfold isRelative at *
    cases h : render dir with
    | nil => simp [h] at this
    | cons c cs => simp [h] at this; simp [this]
  rw [normpath_spec dir hd, normpath_spec [] (by simp), hrel, hr]
  simp only [if_true, Bool.false_eq_true, if_false]
  rw [segs_append, resolve_append, segs_render dir hd]
  simp

/-- C17.  An absolute path does not depend on the working directory. -/
theorem normpath_absolute (cwd cwd' p : Str) (h : isRelative p = false) :
    normpath cwd p = normpath cwd' p := by
  simp [normpath, h]

/-- C17.  `..` at the root stays at the root, any number of times. -/
theorem normpath_root_dotdot (k : Nat) (cwd : Str) :
    normpath cwd ((List.replicate k (slash :: dotdot)).flatten ++ [slash]) = [slash] := by
  have hrel : isRelative ((List.replicate k (slash :: dotdot)).flatten ++ [slash]) = false := by
    cases k <;> simp [isRelative, List.replicate_succ]
  rw [normpath_absolute cwd (render []) _ hrel, normpath_spec [] (by simp), hrel]
  have : ∀ (k : Nat) (a : Str), resolve [] (segs a) = [] → slash ∉ a →
      resolve [] (segs (a ++ ((List.replicate k (slash :: dotdot)).flatten ++ [slash]))) = [] := by
    intro k
    induction k with
    | zero =>
      intro a ha _
      simp only [List.replicate_zero, List.flatten_nil, List.nil_append]
      rw [segs_append, resolve_append, ha]; simp [segs, resolve]
    | succ k ih =>
      intro a ha hs
      have := ih dotdot (by decide) (by decide)
      simp only [List.replicate_succ, List.flatten_cons, List.cons_append, List.append_assoc]
      rw [segs_append, resolve_append, ha]
      exact this
  have := this k [] (by decide) (by simp)
  simp only [List.nil_append] at this
  simp [this, render]

/-! ## C46, buffer -/

/-- C46.  `getcwd` fits exactly: EINVAL for size 0, ERANGE iff the string with its terminator
does not fit, and on success the buffer holds the string and its terminator; memory from
offset `bufsize` on is never touched and errors write nothing. -/
theorem getcwd_buffer (cwd mem : Str) (bufsize : Nat) (hm : bufsize ≤ mem.length) :
    ((getcwd cwd mem bufsize).2 = .err .EINVAL ↔ bufsize = 0) ∧
    ((getcwd cwd mem bufsize).2 = .err .ERANGE ↔ 0 < bufsize ∧ bufsize < cwd.length + 1) ∧
    ((getcwd cwd mem bufsize).2 = .ok 0 ↔ cwd.length + 1 ≤ bufsize) ∧
    ((getcwd cwd mem bufsize).2 = .ok 0 → cwd ++ [0] <+: (getcwd cwd mem bufsize).1) ∧
    ((getcwd cwd mem bufsize).2 ≠ .ok 0 → (getcwd cwd mem bufsize).1 = mem) ∧
    (getcwd cwd mem bufsize).1.length = mem.length ∧
    (getcwd cwd mem bufsize).1.drop bufsize = mem.drop bufsize := by
  unfold getcwd
  by_cases h0 : bufsize = 0
  · simp [h0]
  · by_cases h1 : bufsize < cwd.length + 1
    · simp [h0, h1]; omega
    · have h2 : cwd.length + 1 ≤ bufsize := by omega
      simp only [h0, if_false, List.length_append, List.length_cons, List.length_nil]
      simp only [h1, if_false]
      simp [h2]
      refine ⟨by omega, ?_⟩
      rw [List.drop_append, List.drop_of_length_le (by omega : cwd.length ≤ bufsize)]
      simp only [List.nil_append]
      rw [show bufsize - cwd.length = (bufsize - cwd.length - 1) + 1 by omega]
      simp only [List.drop_succ_cons, List.drop_drop]
      congr 1; omega

/-! ## The hypotheses are met -/

/-- `/usr/lib` -/
def demoDir : List Str := [[117, 115, 114], [108, 105, 98]]
example : ∀ n ∈ demoDir, Good n := by decide
-- cwd /usr/lib, path "./../a//b/.." gives "/usr/a"
example : normpath (render demoDir) [46, 47, 46, 46, 47, 97, 47, 47, 98, 47, 46, 46] =
    [47, 117, 115, 114, 47, 97] := by decide

end Verif.Path
