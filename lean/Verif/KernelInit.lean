import Verif.KernelStep
import Verif.RecoveryInv

/-!
# The initial state, reachable states
-/

namespace Verif.Fs
open Verif.Path

theorem format_lt {i : Nat} {nd : Inode} (h : format.inodes i = some nd) :
    i = 1 ∨ i = 2 ∨ i = 3 ∨ i = 4 ∨ i = 5 ∨ i = 6 ∨ i = 7 := by
  unfold format at h
  simp only at h
  split at h <;> first | simp | cases h

instance (n : Name) : Decidable (Good n) := inferInstanceAs (Decidable (_ ∧ _ ∧ _ ∧ _))
instance (n : Name) : Decidable (Proper n) := inferInstanceAs (Decidable (_ ∧ _))

theorem format_tree : Tree format.inodes format.next := by
  refine ⟨⟨_, rfl, rfl⟩, by decide, ?_, ?_, ?_, ?_, ?_, ?_, ?_, ?_, ?_⟩
  · intro i nd h
    have := format_lt h
    show i < 8
    omega
  · intro d nd h
    rcases format_lt h with rfl | rfl | rfl | rfl | rfl | rfl | rfl <;> cases h <;> decide
  · intro d nd h
    rcases format_lt h with rfl | rfl | rfl | rfl | rfl | rfl | rfl <;> cases h <;> decide
  · intro d nd n j h hm hp
    rcases format_lt h with rfl | rfl | rfl | rfl | rfl | rfl | rfl <;> cases h <;>
      simp only [List.mem_cons, Prod.mk.injEq, List.not_mem_nil, or_false] at hm
    · rcases hm with ⟨rfl, rfl⟩ | ⟨rfl, rfl⟩ | ⟨rfl, rfl⟩
      · exact ⟨by decide, by decide, by decide, _, rfl, by decide⟩
      · exact absurd rfl hp.1
      · exact absurd rfl hp.2
    · rcases hm with ⟨rfl, rfl⟩ | ⟨rfl, rfl⟩ | ⟨rfl, rfl⟩ | ⟨rfl, rfl⟩ | ⟨rfl, rfl⟩ | ⟨rfl, rfl⟩
      · exact absurd rfl hp.2
      · exact absurd rfl hp.1
      all_goals exact ⟨by decide, by decide, by decide, _, rfl, by decide⟩
    · rcases hm with ⟨rfl, rfl⟩ | ⟨rfl, rfl⟩
      · exact absurd rfl hp.2
      · exact absurd rfl hp.1
  · intro d nd n m j jd h h1 h2 p1 p2 hj hd
    rcases format_lt h with rfl | rfl | rfl | rfl | rfl | rfl | rfl <;> cases h <;>
      simp only [List.mem_cons, Prod.mk.injEq, List.not_mem_nil, or_false] at h1 h2
    · rcases h1 with ⟨rfl, rfl⟩ | ⟨rfl, rfl⟩ | ⟨rfl, rfl⟩
      · rcases h2 with ⟨rfl, -⟩ | ⟨rfl, h⟩ | ⟨rfl, h⟩
        · rfl
        · cases h
        · cases h
      · exact absurd rfl p1.1
      · exact absurd rfl p1.2
    · have hj4 : ∀ x, format.inodes j = some x → x.isDir = true → j = 1 ∨ j = 2 ∨ j = 7 := by
        intro x hx hxd
        rcases format_lt hx with rfl | rfl | rfl | rfl | rfl | rfl | rfl <;> cases hx <;> first | exact absurd hxd (by decide) | simp
      have := hj4 _ hj hd
      rcases h1 with ⟨rfl, rfl⟩ | ⟨rfl, rfl⟩ | ⟨rfl, rfl⟩ | ⟨rfl, rfl⟩ | ⟨rfl, rfl⟩ | ⟨rfl, rfl⟩
      · exact absurd rfl p1.2
      · exact absurd rfl p1.1
      all_goals omega
    · rcases h1 with ⟨rfl, rfl⟩ | ⟨rfl, rfl⟩
      · exact absurd rfl p1.2
      · exact absurd rfl p1.1
  · intro d nd h hd h7
    rcases format_lt h with rfl | rfl | rfl | rfl | rfl | rfl | rfl <;> cases h <;>
      first | exact absurd hd (by decide) | exact absurd rfl h7 | exact ⟨by decide, _, rfl, by decide⟩
  · intro d nd h hd h7
    rcases format_lt h with rfl | rfl | rfl | rfl | rfl | rfl | rfl <;> cases h <;>
      first | exact absurd hd (by decide) | exact absurd rfl h7 | rfl
  · intro i nd h hd
    rcases format_lt h with rfl | rfl | rfl | rfl | rfl | rfl | rfl <;> cases h <;>
      first | exact absurd hd (by decide) | decide
  · intro d nd n j h hm hp hr
    rcases format_lt h with rfl | rfl | rfl | rfl | rfl | rfl | rfl
    · exact absurd rfl hr
    · exact ⟨1, _, nDev, rfl, by simp, by decide⟩
    all_goals (cases h; simp only [List.mem_cons, Prod.mk.injEq, List.not_mem_nil, or_false] at hm)
    · rcases hm with ⟨rfl, -⟩ | ⟨rfl, -⟩
      · exact absurd rfl hp.2
      · exact absurd rfl hp.1

theorem format_inv : FsInv format (fun _ => 0) := by
  refine ⟨format_tree, ?_, rfl⟩
  intro i
  cases h : format.inodes i with
  | none => exact ⟨rfl, rfl, rfl⟩
  | some nd =>
    rcases format_lt h with rfl | rfl | rfl | rfl | rfl | rfl | rfl <;> cases h
    all_goals (simp only [LocalAt]; refine ⟨rfl, rfl, ?_⟩; first | decide | exact ⟨rfl, by decide⟩)

end Verif.Fs

namespace Verif.Kernel
open Verif.Path Verif.Fs
open Verif.Pipe (Pipe End)

theorem increfRoot_inv {fs : Fs} {cnt} (h : FsInv fs cnt) : FsInv (increfRoot fs) cnt := by
  obtain ⟨nd, h1, h2⟩ := h.tree.root
  simp only [increfRoot, h1]
  exact h.dirRef h1 h2

/-- Booting on a file system without open files. -/
theorem boot_inv {fs : Fs} (h : FsInv fs (fun _ => 0)) : Inv (boot fs) [] := by
  have hz : ∀ r, tot (boot fs) [] r = 0 := by
    intro r
    have : cagesW r (boot fs).cages = 0 := by
      apply sumTo_zero
      intro c _
      simp only [boot]
      have ht : tableW r initTable = 0 := sumTo_zero (fun fd _ => initTable_W r fd)
      split
      · exact ht
      split
      · exact ht
      · rfl
    simp only [tot, this, handW]
  refine ⟨?_, ?_, ?_, ?_, by simp⟩
  · simp only [hz]; exact increfRoot_inv (increfRoot_inv h)
  · intro id p hp; cases hp
  · intro id; simp [boot]
  · intro c cg hc
    have hcwd : CwdOk [slash] := ⟨[], by simp, by simp [render]⟩
    simp only [boot] at hc
    split at hc
    · rename_i e; subst e; cases hc; exact ⟨by decide, initTable_ok _, hcwd⟩
    split at hc
    · rename_i e; subst e; cases hc; exact ⟨by decide, initTable_ok _, hcwd⟩
    · cases hc

theorem init_inv : Inv init [] :=
  (boot_inv format_inv).step 0 (.mkdir pTmp sIRWXA) (by simp only [Tame]; split <;> trivial)

/-- The states that a system can get to, with the metadata file it was last started from: a freshly initialised system; tame
system calls (`Tame` is in `KernelStep`) that do not abort the process; a shutdown (of a system without entries in
`domsock_paths`, see `shutdown_deletes_violated`) and a start; a crash and a start, provided that log and metadata file together told what was in
memory (`Synced`, shown in `RecoverySync` for what calls do; see `RecoveryWitness` for the exceptions).  What `cleartmp` does at a start or a shutdown
are calls of cage 0. -/
inductive Life : Recovery.Snap → State → Prop
  | init : Life (Recovery.snapOf format) init
  | step {b : Recovery.Snap} {s : State} (c : Nat) (op : Op) : Life b s → Tame s c op → (step s c op).2.ret ≠ .panic →
      Life b (step s c op).1
  | restart {b : Recovery.Snap} {s : State} : Life b s → s.fs.dom = [] →
      Life (Recovery.snapOf (Recovery.finalize s).1.fs)
        (boot (Recovery.start (Recovery.snapOf (Recovery.finalize s).1.fs) (Recovery.finalize s).1.fs.disk))
  | crash {b : Recovery.Snap} {s : State} : Life b s → Recovery.Synced b s.fs →
      Life b (boot (Recovery.start (Recovery.recover b s.fs.log) s.fs.disk))

theorem finalize_eq {s : State} (h : s.fs.dom = []) : Recovery.finalize s = Recovery.exitAll maxCage s := by
  simp only [Recovery.finalize, h, Recovery.removeDoms]

theorem Life.inv {b : Recovery.Snap} {s : State} (h : Life b s) : Inv s [] := by
  induction h with
  | init => exact init_inv
  | step c op _ ht _ ih => exact ih.step c op ht
  | restart _ hd ih => rw [finalize_eq hd]; exact boot_inv (Recovery.clean_inv (Recovery.exitAll_fs ih))
  | crash _ hs ih => exact boot_inv (Recovery.recover_inv ih.fs hs)

/-- The reachable states. -/
def Reach (s : State) : Prop := ∃ b, Life b s

theorem Reach.init : Reach init := ⟨_, .init⟩

theorem Reach.step {s : State} (c : Nat) (op : Op) (h : Reach s) (ht : Tame s c op) (hp : (step s c op).2.ret ≠ .panic) :
    Reach (step s c op).1 := by
  obtain ⟨b, hl⟩ := h; exact ⟨b, .step c op hl ht hp⟩

theorem Reach.inv {s : State} (h : Reach s) : Inv s [] := by
  obtain ⟨b, hl⟩ := h; exact hl.inv

/-! ## Checking that a concrete history is reachable -/

/-- `Tame`, computed. -/
def tameB (s : State) (c : Nat) (op : Op) : Bool :=
  match s.cages c with
  | none => true
  | some cg =>
    match op with
    | .rename _ n => match s.fs.walk (cg.path n) with | some (some _, _) => false | _ => true
    | .unlink p =>
      match s.fs.walk (cg.path p) with
      | some (some _, some par) =>
        match s.fs.inodes par with | some pd => pd.mode &&& sIWALL != 0 | none => true
      | _ => true
    | .dup2 o n =>
      match getFd cg.fds o with
      | some (some (.epoll _)) => (cg.fds n.toNat).isNone
      | _ => true
    | .pipe2 _ =>
      match nextFd cg.fds 0 with | none => true | some fd => (nextFd cg.fds (fd + 1)).isSome
    | .fork ch => (s.cages ch).isNone
    | .exec ch => ch == c || (s.cages ch).isNone
    | _ => true

theorem tameB_tame {s : State} {c : Nat} {op : Op} (h : tameB s c op = true) : Tame s c op := by
  unfold tameB at h
  unfold Tame
  cases hc : s.cages c with
  | none => trivial
  | some cg =>
    rw [hc] at h
    cases op <;> simp only at h ⊢
    case rename o n =>
      intro i par e
      rw [e] at h; cases h
    case unlink p =>
      intro i par pd e e'
      rw [e] at h
      simp only [e'] at h
      simpa using h
    case dup2 o n =>
      intro f e
      rw [e] at h
      simpa using h
    case pipe2 f =>
      intro fd e
      rw [e] at h
      obtain ⟨fd', e'⟩ := Option.isSome_iff_exists.1 h
      obtain ⟨h1, h2, h3, -⟩ := nextFd_some e'
      exact ⟨fd', by omega, h2, h3⟩
    case fork ch => simpa using h
    case exec ch => simpa using h

/-- Every call of the history is tame and does not abort. -/
def runB (s : State) : List (Nat × Op) → Bool
  | [] => true
  | (c, op) :: h => tameB s c op && decide ((step s c op).2.ret ≠ .panic) && runB (step s c op).1 h

theorem Reach.run {s : State} (hr : Reach s) (h : List (Nat × Op)) (hb : runB s h = true) :
    Reach (run s h) := by
  induction h generalizing s with
  | nil => exact hr
  | cons x h ih =>
    obtain ⟨c, op⟩ := x
    simp only [runB, Bool.and_eq_true, decide_eq_true_eq] at hb
    exact ih (.step c op hr (tameB_tame hb.1.1) hb.1.2) hb.2

end Verif.Kernel
