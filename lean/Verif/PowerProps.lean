import Verif.Power
import Verif.MiscProps
import Verif.RecoveryWitness

/-!
# C72: what `fsync` reported written is there after the power failed
-/

namespace Verif.Power
open Verif.Path Verif.Fs Verif.Kernel Verif.Recovery

/-! ## Lemmas -/

theorem call_other (P : Sys) (c : Nat) (x : Call) (i : Nat) (o : Option (List UInt8)) (h : o ∈ (call P c x).1.may i) :
    o ∈ P.may i ∨ o = (call P c x).1.s.fs.disk i := by
  cases x with
  | sys op =>
    simp only [call] at h ⊢
    split at h
    · exact .inl h
    · rcases List.mem_cons.1 h with h | h
      · exact .inr h
      · exact .inl h
  | fsync fd ok =>
    simp only [call] at h ⊢
    split at h
    · rename_i v j e
      simp only [upd_apply] at h
      split at h
      · rename_i e2
        subst e2
        exact .inr (List.mem_singleton.1 h)
      · exact .inl h
    · exact .inl h

theorem run_may : ∀ (H : List (Nat × Call)) (P : Sys) (i : Nat) (o : Option (List UInt8)), o ∈ (run P H).may i →
    o ∈ P.may i ∨ ∃ H1 H2, H = H1 ++ H2 ∧ o = (run P H1).s.fs.disk i
  | [], _, _, _, h => .inl h
  | (c, x) :: H, P, i, o, h => by
    rcases run_may H (call P c x).1 i o h with h | ⟨H1, H2, e, h⟩
    · rcases call_other P c x i o h with h | h
      · exact .inl h
      · exact .inr ⟨[(c, x)], H, rfl, h⟩
    · exact .inr ⟨(c, x) :: H1, H2, by rw [e]; rfl, h⟩

/-- `fsync` changes nothing in the system. -/
theorem fsync_keeps (P : Sys) (c : Nat) (fd : Int) (ok : Bool) : (call P c (.fsync fd ok)).1.s = P.s := by
  simp only [call]
  split <;> rfl

theorem present_call {P : Sys} (h : ∀ i, P.s.fs.disk i ∈ P.may i) (c : Nat) (x : Call) (i : Nat) :
    (call P c x).1.s.fs.disk i ∈ (call P c x).1.may i := by
  cases x with
  | sys op =>
    simp only [call]
    split
    · rename_i e; rw [e]; exact h i
    · exact List.mem_cons_self
  | fsync fd ok =>
    simp only [call]
    split
    · simp only [upd_apply]
      split
      · rename_i e; rw [e]; exact List.mem_singleton.2 rfl
      · exact h i
    · exact h i

/-- The present content may always be on the disk. -/
theorem present : ∀ (H : List (Nat × Call)) {P : Sys}, (∀ i, P.s.fs.disk i ∈ P.may i) → ∀ i, (run P H).s.fs.disk i ∈ (run P H).may i
  | [], _, h => h
  | (c, x) :: H, _, h => present H (present_call h c x)

/-- After a successful `fsync` only the present content of that file is on the disk. -/
theorem synced {P : Sys} (h : Reach P.s) {c fd i pos size : Nat} {f : BitVec 32} {ok : Bool} {v : Int} (ho : OpenOn P.s c fd i pos f)
    (hf : IsFile P.s i size) (hr : (call P c (.fsync fd ok)).2 = .ok v) :
    (call P c (.fsync fd ok)).1.s = P.s ∧ (call P c (.fsync fd ok)).1.may i = [P.s.fs.disk i] := by
  obtain ⟨cg, hc, -, -⟩ := ho.get
  obtain ⟨-, -, a3, a4⟩ := Misc.fsync_answers_partial h hc ho.1 ok
  by_cases hm : f &&& 3#32 = 0#32
  · simp only [call, a3 i pos f ho hm] at hr
    cases hr
  · have e := (a4 i pos f ho hm).1 ⟨size, hf⟩
    cases ok with
    | false => simp only [call, e, Bool.false_eq_true, if_false] at hr; cases hr
    | true => simp only [call, e, if_true, upd_same, and_self]

theorem incref_disk (fs : Fs) (x : Nat → Option (List UInt8)) : increfRoot { fs with disk := x } = { increfRoot fs with disk := x } := by
  unfold increfRoot
  cases h : fs.inodes rootIno with
  | none => rfl
  | some nd => rfl

/-- Other host files, the same tables. -/
theorem boot_tables (b : Snap) (x y : Nat → Option (List UInt8)) :
    (boot (Recovery.start b x)).fs = { (boot (Recovery.start b y)).fs with disk := (Recovery.start b x).disk } := by
  have h := incref_disk (Recovery.start b y) (Recovery.start b x).disk
  have h2 := incref_disk (increfRoot (Recovery.start b y)) (Recovery.start b x).disk
  exact (congrArg increfRoot h).trans h2

/-! ## C72 -/

/-- C72.  After `fsync` has succeeded on a regular file, and after any further calls, the host file of that inode on the disk has a content it had at
or after the `fsync`, never an older one, whenever the power fails. -/
theorem synced_bytes {P : Sys} (h : Reach P.s) {c fd i pos size : Nat} {f : BitVec 32} {ok : Bool} {v : Int} (ho : OpenOn P.s c fd i pos f)
    (hf : IsFile P.s i size) (hr : (call P c (.fsync fd ok)).2 = .ok v) (H : List (Nat × Call)) {d : Disk}
    (hd : Lost (run (call P c (.fsync fd ok)).1 H) d) :
    ∃ H1 H2, H = H1 ++ H2 ∧ d.files i = (run (call P c (.fsync fd ok)).1 H1).s.fs.disk i := by
  obtain ⟨e1, e2⟩ := synced h ho hf hr
  rcases run_may H _ i _ (hd.files i) with hm | hm
  · rw [e2] at hm
    refine ⟨[], H, rfl, ?_⟩
    rw [List.mem_singleton.1 hm]
    simp only [run, e1]
  · exact hm

/-- C72.  In particular, if the content of the file has not changed since, it is on the disk as it is. -/
theorem synced_bytes_same {P : Sys} (h : Reach P.s) {c fd i pos size : Nat} {f : BitVec 32} {ok : Bool} {v : Int} (ho : OpenOn P.s c fd i pos f)
    (hf : IsFile P.s i size) (hr : (call P c (.fsync fd ok)).2 = .ok v) (H : List (Nat × Call)) {d : Disk}
    (hd : Lost (run (call P c (.fsync fd ok)).1 H) d)
    (hs : ∀ H1 H2, H = H1 ++ H2 → bytes (run (call P c (.fsync fd ok)).1 H1).s i = bytes P.s i) :
    (d.files i).getD [] = bytes P.s i := by
  obtain ⟨H1, H2, e, e2⟩ := synced_bytes h ho hf hr H hd
  rw [e2]; exact hs H1 H2 e

/-- C72.  If moreover the whole log has reached the disk, the system comes up with every absolute path as it was when the power failed, and each host file
that is on the disk as it was has its content.  Partial: nothing makes the log reach the disk (`fsync_lost_violated`). -/
theorem power_loss_partial {P : Sys} (hs : Sess (fun _ => False) P.b P.s) {d : Disk} (hd : Lost P d) (hl : d.log = some P.s.fs.log)
    {c : Nat} {cg : Cage} (hc : P.s.cages c = some cg) :
    ∃ s', reboot d = some s' ∧ (∀ p, isRelative p = false → (step s' 0 (.stat p)).2 = (step P.s c (.stat p)).2) ∧
      ∀ p i size, isRelative p = false → Leads P.s cg p i → IsFile P.s i size → d.files i = P.s.fs.disk i → bytes s' i = bytes P.s i := by
  have e : reboot d = some (boot (Recovery.start (recover P.b P.s.fs.log) d.files)) := by
    unfold reboot load
    rw [hd.snap, hl]; rfl
  refine ⟨_, e, ?_, ?_⟩
  · intro p hp
    obtain ⟨s', e1, h1, -⟩ := crash_stat_partial hs hc hp
    rw [reboot_crash] at e1
    cases e1
    rw [← h1]
    have e2 := boot_tables (recover P.b P.s.fs.log) d.files P.s.fs.disk
    have e3 : ∀ x, (boot (Recovery.start (recover P.b P.s.fs.log) x)).cages 0 = some { fds := initTable, cwd := [slash], parent := 0 } := fun _ => rfl
    simp only [step, e3, e2]
    rfl
  · intro p i size hp hL hf hdi
    obtain ⟨s', e1, ht⟩ := crash_paths_partial hs
    rw [reboot_crash] at e1
    cases e1
    obtain ⟨nd, nd', n1, -, -, -, -, -, -, n2⟩ := (ht _ (hs.life.inv.gp hc p) i).2 hL
    obtain ⟨nd0, f1, f2, -⟩ := hf
    rw [n1] at f1; cases f1
    have e2 := n2 f2
    rw [(boot_at _ i).1] at e2
    unfold bytes
    rw [(boot_at _ i).1, ← e2]
    simp only [Recovery.start, hdi]

/-! ## States that meet the hypotheses, and the violation -/

/-- `/a` made and written. -/
def early : List (Nat × Call) := [(0, .sys (.openP pA 0o102#32 0o666#32)), (0, .sys (.write 3 [1, 2, 3]))]
/-- A new disk. -/
def boot0 : Sys := start (snapOf format) init

theorem early_s : (run boot0 early).s = Kernel.run init [(0, .openP pA 0o102#32 0o666#32), (0, .write 3 [1, 2, 3])] := rfl

theorem early_present : ∀ i, (run boot0 early).s.fs.disk i ∈ (run boot0 early).may i := present early (fun _ => List.mem_singleton.2 rfl)

theorem early_sess : Sess (fun _ => False) (run boot0 early).b (run boot0 early).s := by
  rw [early_s]
  exact Sess.run .init _ (by decide +kernel) (.inr (by decide +kernel))

theorem early_reach : Reach (run boot0 early).s := by
  rw [early_s]
  exact Reach.init.run _ (by decide +kernel)

/-- Before the `fsync` the host file may be on the disk absent, empty, or with its three bytes; after it only the last; and a later write adds one more. -/
example : (run boot0 early).may 9 = [some [1, 2, 3], some [], none] ∧
    (call (run boot0 early) 0 (.fsync 3 true)).2 = .ok 0 ∧
    (call (run boot0 early) 0 (.fsync 3 true)).1.may 9 = [some [1, 2, 3]] ∧
    (run boot0 (early ++ [(0, .fsync 3 true), (0, .sys (.write 3 [4]))])).may 9 = [some [1, 2, 3, 4], some [1, 2, 3]] := by
  decide +kernel

/-- `synced_bytes` is about states like this one. -/
example : OpenOn (run boot0 early).s 0 3 9 3 0o2#32 ∧ IsFile (run boot0 early).s 9 3 := by
  refine ⟨⟨by decide, _, rfl, by rfl⟩, _, rfl, by rfl, by rfl⟩

/-- `power_loss_partial` is about states like this one. -/
example : Lost (run boot0 early) (diskOf (run boot0 early).b (run boot0 early).s.fs) :=
  ⟨rfl, ⟨_, congrArg some (List.take_length).symm⟩, early_present⟩

/-- C72 violated: `fsync` reports success, the power fails at once, and the file does not exist when the system comes up again: the three bytes are on the disk,
the record that names them is not, because the log is never sent to the disk. -/
theorem fsync_lost_violated : ∃ (P : Sys) (d : Disk) (s' : State), Sess (fun _ => False) P.b P.s ∧ (call P 0 (.fsync 3 true)).2 = .ok 0 ∧
    Lost (call P 0 (.fsync 3 true)).1 d ∧ (d.files 9) = some [1, 2, 3] ∧ reboot d = some s' ∧ found P.s pA = .ok 0 ∧
    found s' pA = .err .ENOENT := by
  refine ⟨run boot0 early, ⟨.whole (run boot0 early).b, some [], (run boot0 early).s.fs.disk⟩, _, early_sess, by decide +kernel,
    ⟨rfl, ⟨0, rfl⟩, ?_⟩, by decide +kernel, rfl, by decide +kernel, by decide +kernel⟩
  exact fun i => fsync_keeps (run boot0 early) 0 3 true ▸ present_call early_present 0 (.fsync 3 true) i

/-- C72 violated: with the file already named on the disk but the record of its size not, the file comes up shorter than `fsync` left it. -/
theorem fsync_shorter_violated : ∃ (P : Sys) (d : Disk) (s' : State), Sess (fun _ => False) P.b P.s ∧ (call P 0 (.fsync 3 true)).2 = .ok 0 ∧
    Lost (call P 0 (.fsync 3 true)).1 d ∧ (d.files 9) = some [1, 2, 3] ∧ reboot d = some s' ∧ sizeOf? P.s pA = some 3 ∧
    sizeOf? s' pA = some 0 := by
  refine ⟨run boot0 early, ⟨.whole (run boot0 early).b, some ((run boot0 early).s.fs.log.take 4), (run boot0 early).s.fs.disk⟩, _, early_sess,
    by decide +kernel, ⟨rfl, ⟨4, rfl⟩, ?_⟩, by decide +kernel, rfl, by decide +kernel, by decide +kernel⟩
  exact fun i => fsync_keeps (run boot0 early) 0 3 true ▸ present_call early_present 0 (.fsync 3 true) i

end Verif.Power
