import Verif.LocksLemmas

/-!
# Waiting for locks: the calls one by one

Each call, followed through (`Good`), under assumptions on the discipline (`Fits`) that `LocksProps` shows for particular ones.
-/

namespace Verif.Locks

/-- The walks a call makes. -/
def Call.walks : Call → List (List Nat)
  | .stat _ p _ | .chmod _ p _ | .mkdir _ p _ _ | .create _ _ p _ _ | .openOld _ _ p _ _ _ | .unlink _ p _ _ _ | .rmdir _ p _ _ _
  | .truncate _ p _ | .chdir _ p _ => [p.chain]
  | .link _ p _ q _ _ | .rename _ p q _ => [p.chain, q.chain]
  | .fork _ _ ns _ => [ns]
  | .getcwd _ | .look _ _ _ _ | .read _ _ _ | .write _ _ _ _ | .ftruncate _ _ _ | .fchmod _ _ _ | .dup _ _ _ _ | .close _ _ _ _ _ _
  | .exit _ _ | .fchdir _ _ _ _ => []

/-- Not `chdir`, `fchdir` or `fork`. -/
def Call.plain : Call → Prop
  | .chdir _ _ _ | .fchdir _ _ _ _ | .fork _ _ _ _ => False
  | _ => True

/-- What the calls need of a discipline.  `low`: the locks one may have when going for an inode; `W`: the walks there are. -/
structure Fits (d : Disc) (h : Hash) (low : Lk → Prop) (W : List Nat → Prop) : Prop where
  slotLow : ∀ c n, low (.slot c n)
  nro : ∀ l, (∀ c, l ≠ .cwd c) → ¬ d.ro l
  slot : ∀ c n m, d.cond [] (.slot c n) m
  cwd : ∀ c, d.cond [] (.cwd c) .r
  ino : ∀ H i m, (∀ x ∈ H, low x.1) → d.cond H (h.at i) m
  dom : ∀ H m, (∀ x ∈ H, low x.1) → d.cond H .dom m
  log : ∀ H m, (∀ x ∈ H, low x.1) → d.cond H .log m
  obj : ∀ H i m, (∀ x ∈ H, low x.1) → d.cond H (h.file i) m
  file : ∀ H i j m m', (∀ x ∈ H, low x.1) → d.cond ((h.at i, m) :: H) (h.file j) m'
  walk : ∀ H ns a b, (∀ x ∈ H, low x.1) → W ns → (a, b) ∈ (1 :: ns).zip ns → d.cond ((h.at a, .r) :: H) (h.at b) .r

variable {d : Disc} {h : Hash} {low : Lk → Prop} {W : List Nat → Prop}

theorem low_nil : ∀ x ∈ ([] : List (Lk × Mode)), low x.1 := fun _ h => (nomatch h)

theorem Fits.low_one (f : Fits d h low W) {c n : Nat} {m : Mode} : ∀ x ∈ [(Lk.slot c n, m)], low x.1 := by
  intro x hx
  rw [List.mem_singleton] at hx
  subst hx
  exact f.slotLow c n

theorem Fits.nat (f : Fits d h low W) {i : Nat} : ¬ d.ro (h.at i) := f.nro _ fun _ h => (nomatch h)
theorem Fits.nfile (f : Fits d h low W) {i : Nat} : ¬ d.ro (h.file i) := f.nro _ fun _ h => (nomatch h)
theorem Fits.nslot (f : Fits d h low W) {c n : Nat} : ¬ d.ro (.slot c n) := f.nro _ fun _ h => (nomatch h)
theorem Fits.nlog (f : Fits d h low W) : ¬ d.ro .log := f.nro _ fun _ h => (nomatch h)
theorem Fits.ndom (f : Fits d h low W) : ¬ d.ro .dom := f.nro _ fun _ h => (nomatch h)

theorem seg_ino (f : Fits d h low W) {H : List (Lk × Mode)} (hH : ∀ x ∈ H, low x.1) {i : Nat} {m : Mode} {p : List Instr}
    (hp : Seg d ((h.at i, m) :: H) p) : Seg d H (sec (h.at i) m p) := seg_sec (f.ino H i m hH) (fun _ => f.nat) hp

theorem seg_ino0 (f : Fits d h low W) {H : List (Lk × Mode)} (hH : ∀ x ∈ H, low x.1) {i : Nat} {m : Mode} :
    Seg d H (sec (h.at i) m []) := seg_ino f hH seg_nil

theorem seg_ino1 (f : Fits d h low W) {H : List (Lk × Mode)} (hH : ∀ x ∈ H, low x.1) {i : Nat} {m : Mode} :
    Seg d H (sec (h.at i) m [.opt]) := seg_ino f hH (seg_opt seg_nil)

theorem seg_note (f : Fits d h low W) {H : List (Lk × Mode)} (hH : ∀ x ∈ H, low x.1) {i : Nat} : Seg d H (note h i) :=
  seg_app (seg_ino0 f hH) (seg_sec (f.log H _ hH) (fun _ => f.nlog) seg_nil)

theorem seg_file (f : Fits d h low W) {H : List (Lk × Mode)} (hH : ∀ x ∈ H, low x.1) {i j : Nat} {m m' : Mode} :
    Seg d ((h.at i, m) :: H) (sec (h.file j) m' []) := seg_sec (f.file H i j m m' hH) (fun _ => f.nfile) seg_nil

theorem seg_norm (f : Fits d h low W) {c : Nat} {p : Path} : Seg d [] (norm c p) := by
  unfold norm
  split
  · exact seg_sec (f.cwd c) (nomatch ·) seg_nil
  · exact seg_nil

theorem seg_go (f : Fits d h low W) {H : List (Lk × Mode)} (hH : ∀ x ∈ H, low x.1) {ns : List Nat} (hw : W ns) :
    Seg d H (walk h ns) := seg_walk (f.ino H 1 .r hH) fun a b hab => f.walk H ns a b hH hw hab

theorem seg_find (f : Fits d h low W) {c : Nat} {p : Path} (hw : W p.chain) : Seg d [] (find h c p) :=
  seg_app (seg_norm f) (seg_go f low_nil hw)

theorem seg_slot (f : Fits d h low W) {c n : Nat} {m : Mode} {p : List Instr} (hp : Seg d [(.slot c n, m)] p) :
    Seg d [] (sec (.slot c n) m p) := seg_sec (f.slot c n m) (fun _ => f.nslot) hp

theorem seg_if {H : List (Lk × Mode)} {b : Prop} [Decidable b] {p q : List Instr} (hp : Seg d H p) (hq : Seg d H q) :
    Seg d H (if b then p else q) := by split <;> assumption

theorem seg_shut (f : Fits d h low W) {c n i : Nat} {o : Option Mode} {gone logs : Bool} : Seg d [] (shut h c n i o gone logs) := by
  have hl := f.low_one (c := c) (n := n) (m := .w)
  refine seg_app (seg_slot f (seg_opt (seg_app (seg_app (seg_ino f hl ?_) ?_) ?_))) (seg_slot f seg_nil)
  · cases o with
    | none => exact seg_nil
    | some m => exact seg_file f hl
  · exact seg_if (seg_ino0 f hl) seg_nil
  · exact seg_if (seg_note f hl) seg_nil

/-- All calls but `chdir`, `fchdir` and `fork`. -/
theorem plain_good (f : Fits d h low W) {c : Call} (hc : c.plain) (hw : ∀ ns ∈ c.walks, W ns) : Good d [] (prog h c) := by
  apply seg_good
  have h0 : ∀ x ∈ ([] : List (Lk × Mode)), low x.1 := low_nil
  cases c with
  | stat c p i => exact seg_app (seg_find f (hw _ (by simp [Call.walks]))) (seg_opt (seg_ino0 f h0))
  | chmod c p i =>
    exact seg_app (seg_app (seg_find f (hw _ (by simp [Call.walks]))) (seg_opt (seg_ino0 f h0))) (seg_opt (seg_note f h0))
  | mkdir c p par new =>
    exact seg_app (seg_app (seg_app (seg_app (seg_find f (hw _ (by simp [Call.walks]))) (seg_opt (seg_ino0 f h0))) (seg_ino0 f h0))
      (seg_note f h0)) (seg_note f h0)
  | create c n p par new =>
    have hl := f.low_one (c := c) (n := n) (m := .w)
    simp only [prog, List.append_assoc]
    refine seg_app (seg_norm f) ?_
    have := seg_try (d := d) (H := []) (l := .slot c n) (p := walk h p.chain ++ .opt :: sec (h.at par) .w [.opt] ++ sec (h.at new) .w [] ++
      note h par ++ note h new ++ sec (h.file new) .w []) f.nslot
      (seg_app (seg_app (seg_app (seg_app (seg_app (seg_go f hl (hw _ (by simp [Call.walks]))) (seg_opt (seg_ino1 f hl))) (seg_ino0 f hl))
        (seg_note f hl)) (seg_note f hl)) (seg_sec (f.obj _ _ _ hl) (fun _ => f.nfile) seg_nil))
    simpa only [List.append_assoc, List.cons_append] using this
  | openOld c n p i file trunc =>
    have hl := f.low_one (c := c) (n := n) (m := .w)
    simp only [prog, List.append_assoc]
    refine seg_app (seg_norm f) ?_
    have := seg_try (d := d) (H := []) (l := .slot c n) (p := walk h p.chain ++ .opt :: sec (h.at i) .w
      (.opt :: (if file then (if trunc then sec (h.file i) .w [] else []) ++ sec (h.file i) .w [] else []))) f.nslot
      (seg_app (seg_go f hl (hw _ (by simp [Call.walks]))) (seg_opt (seg_ino f hl (seg_opt (seg_if
        (seg_app (seg_if (seg_file f hl) seg_nil) (seg_file f hl)) seg_nil)))))
    simpa only [List.append_assoc, List.cons_append] using this
  | link c p i q par ok =>
    exact seg_app (seg_app (seg_app (seg_app (seg_app (seg_norm f) (seg_norm f)) (seg_go f h0 (hw _ (by simp [Call.walks]))))
      (seg_opt (seg_ino1 f h0))) (seg_go f h0 (hw _ (by simp [Call.walks]))))
      (seg_if (seg_app (seg_app (seg_ino0 f h0) (seg_note f h0)) (seg_note f h0)) (seg_ino0 f h0))
  | unlink c p i par gone =>
    exact seg_app (seg_app (seg_app (seg_app (seg_app (seg_app (seg_find f (hw _ (by simp [Call.walks]))) (seg_opt (seg_ino1 f h0)))
      (seg_ino1 f h0)) (seg_if (seg_ino0 f h0) seg_nil)) (seg_sec (f.dom _ _ h0) (fun _ => f.ndom) seg_nil)) (seg_opt (seg_note f h0)))
      (seg_note f h0)
  | rmdir c p i par gone =>
    exact seg_app (seg_app (seg_app (seg_app (seg_app (seg_app (seg_find f (hw _ (by simp [Call.walks]))) (seg_opt (seg_ino1 f h0)))
      (seg_ino1 f h0)) (seg_ino1 f h0)) (seg_if (seg_ino0 f h0) seg_nil)) (seg_note f h0)) (seg_note f h0)
  | rename c p q par =>
    have hd : Seg d [] (sec .dom .w []) := seg_sec (f.dom _ _ h0) (fun _ => f.ndom) seg_nil
    exact seg_app (seg_app (seg_app (seg_app (seg_app (seg_app (seg_app (seg_norm f) (seg_norm f)) (seg_go f h0 (hw _ (by simp [Call.walks]))))
      (seg_opt (seg_go f h0 (hw _ (by simp [Call.walks]))))) (seg_opt (seg_ino0 f h0))) (seg_note f h0)) hd) hd
  | truncate c p i =>
    exact seg_app (seg_app (seg_find f (hw _ (by simp [Call.walks]))) (seg_opt (seg_ino f h0 (seg_opt (seg_file f h0))))) (seg_note f h0)
  | chdir c p i => exact hc.elim
  | getcwd c => exact seg_opt (seg_sec (f.cwd c) (nomatch ·) seg_nil)
  | look c n i m => exact seg_slot f (seg_opt (seg_ino0 f f.low_one))
  | read c n i => exact seg_slot f (seg_opt (seg_ino f f.low_one (seg_opt (seg_file f f.low_one))))
  | write c n i grows =>
    refine seg_slot f (seg_opt ?_)
    have hl := f.low_one (c := c) (n := n) (m := .w)
    have hn : Seg d [(.slot c n, .w)] (if grows then note h i else []) := seg_if (seg_note f hl) seg_nil
    intro rest hr
    simp only [List.cons_append, Good]
    refine ⟨f.ino _ _ _ hl, fun _ => f.nat, f.file _ _ _ _ _ hl, fun _ => f.nfile, ?_⟩
    rw [erase_second, List.erase_cons_head]
    exact hn rest hr
  | ftruncate c n i =>
    exact seg_slot f (seg_app (seg_opt (seg_ino f f.low_one (seg_opt (seg_file f f.low_one)))) (seg_note f f.low_one))
  | fchmod c n i => exact seg_slot f (seg_app (seg_opt (seg_ino0 f f.low_one)) (seg_note f f.low_one))
  | dup c n n' i =>
    refine seg_slot f (seg_opt (seg_try f.nslot (seg_ino0 f ?_)))
    intro x hx
    rcases List.mem_cons.mp hx with h1 | h1
    · rw [h1]; exact f.slotLow _ _
    · exact f.low_one x h1
  | close c n i o gone logs => exact seg_shut f
  | exit c fds => exact seg_flat (fun x => seg_shut f) fds
  | fchdir c n i ups => exact hc.elim
  | fork c fds ns i => exact hc.elim

/-- `chdir`, if the working directory may be taken on top of an inode. -/
theorem chdir_good (f : Fits d h low W) {c : Nat} {p : Path} {i : Nat} (hw : W p.chain) (hr : ¬ d.ro (.cwd c))
    (hc : d.cond [(h.at i, .w)] (.cwd c) .w) : Good d [] (prog h (.chdir c p i)) :=
  seg_good (seg_app (seg_find f hw) (seg_opt (seg_ino f low_nil (seg_opt (seg_sec hc (fun _ => hr) seg_nil)))))

/-- `fchdir`, if each parent may be taken on top of its child. -/
theorem fchdir_good (f : Fits d h low W) {c n i : Nat} {ups : List Nat} (hr : ¬ d.ro (.cwd c))
    (hc : d.cond [(.slot c n, .r)] (.cwd c) .w)
    (hu : ∀ a b, (a, b) ∈ (i :: ups).zip ups → d.cond [(h.at a, .w), (.slot c n, .r)] (h.at b) .r) :
    Good d [] (prog h (.fchdir c n i ups)) := by
  have hl := f.low_one (c := c) (n := n) (m := .r)
  refine seg_good (seg_slot f (seg_app (p := .opt :: up h i ups) (seg_opt ?_) (seg_sec hc (fun _ => hr) seg_nil)))
  induction ups generalizing i with
  | nil => exact seg_ino1 f hl
  | cons par ups ih =>
    refine seg_app (seg_ino f hl (seg_opt (seg_sec (hu i par (by simp)) (nomatch ·) (seg_opt seg_nil)))) (ih ?_)
    intro a b hab
    exact hu a b (by simp only [List.zip_cons_cons, List.mem_cons]; exact .inr hab)

/-- `fork`, if inodes may be taken by who reads the working directory, and it may be read twice. -/
theorem fork_good (f : Fits d h low W) {c : Nat} {fds : List (Nat × Nat)} {ns : List Nat} {i : Nat} (hw : W ns) (hlow : low (.cwd c))
    (hc : d.cond [(.cwd c, .r)] (.cwd c) .r) : Good d [] (prog h (.fork c fds ns i)) := by
  have hl : ∀ x ∈ [(Lk.cwd c, Mode.r)], low x.1 := by
    intro x hx; rw [List.mem_singleton] at hx; subst hx; exact hlow
  exact seg_good (seg_app (seg_flat (fun x => seg_slot f (seg_ino0 f f.low_one)) fds)
    (seg_sec (f.cwd c) (nomatch ·) (seg_app (seg_app (seg_go f hl hw) (seg_ino0 f hl)) (seg_sec hc (nomatch ·) seg_nil))))

end Verif.Locks
