import Verif.TxnWitness
import Verif.MailboxWitness
import Verif.LockedAppendWitness
import Verif.FollowWitness

/-!
# Logs and record files after a crash (properties C110, C111, C113, C115)

What the theorems on following a log, on appending under a lock and on files of records say of the file also holds of it after a crash between any two
calls and the next start, if some path leads to the file.
-/

namespace Verif.LogCrash
open Verif.Fs Verif.Kernel Verif.Path Verif.Recovery

/-! ## Lemma -/

theorem crash_file {D : Nat → Prop} {b : Snap} {s : State} (hs : Sess D b s) {q : List Name} (hq : ∀ n ∈ q, Good n) {i n : Nat}
    (hi : Walk s.fs.inodes rootIno q i) (hf : IsFile s i n) :
    ∃ s1, reboot (diskOf b s.fs) = some s1 ∧ Walk s1.fs.inodes rootIno q i ∧ bytes s1 i = bytes s i := by
  obtain ⟨s1, e, ht⟩ := crash_paths_partial hs
  refine ⟨s1, e, (ht q hq _).1.2 hi, ?_⟩
  obtain ⟨nd, nd', a, -, -, -, -, -, -, hd⟩ := (ht q hq _).2 hi
  obtain ⟨nd2, g1, g2, -⟩ := hf
  have := hd (by rw [show nd = nd2 from Option.some.inj (a.symm.trans g1)]; exact g2)
  simp only [bytes, this]

/-! ## Theorems -/

/-- C110.  After a crash the log has every record that was written, in order, and all that the follower has got is in it. -/
theorem follow_crash_partial {P : Follow.Plan} {pos : Nat} {x y : Follow.Conf} {ms : List Follow.Move} (h : Follow.Start P pos x)
    (hr : Follow.Runs P x ms y) {D : Nat → Prop} {b : Snap} (hs : Sess D b y.s) {q : List Name} (hq : ∀ n ∈ q, Good n)
    (hi : Walk y.s.fs.inodes rootIno q P.i) :
    ∃ s1, reboot (diskOf b y.s.fs) = some s1 ∧ Walk s1.fs.inodes rootIno q P.i ∧ bytes s1 P.i = bytes x.s P.i ++ y.sent.flatten ∧
      y.got <+: (bytes s1 P.i).drop pos := by
  obtain ⟨s1, e, w, hb⟩ := crash_file hs hq hi (hr.ok h.ok).file
  exact ⟨s1, e, w, by rw [hb]; exact Follow.follow_exact_partial h hr⟩

/-- C111.  After a crash the file has every record that was appended, in order and whole. -/
theorem locked_append_crash_partial {P : LockedAppend.Plan} {y z : LockedAppend.Conf} {ms : List LockedAppend.Move} (h : LockedAppend.Start P y)
    (hr : LockedAppend.Runs P y ms z) {D : Nat → Prop} {b : Snap} (hs : Sess D b z.x.s) {q : List Name} (hq : ∀ n ∈ q, Good n)
    (hi : Walk z.x.s.fs.inodes rootIno q P.i) :
    ∃ s1, reboot (diskOf b z.x.s.fs) = some s1 ∧ Walk s1.fs.inodes rootIno q P.i ∧
      bytes s1 P.i = bytes y.x.s P.i ++ (z.sent.map (·.2)).flatten := by
  obtain ⟨s1, e, w, hb⟩ := crash_file hs hq hi (hr.ok h.ok).file
  exact ⟨s1, e, w, by rw [hb]; exact (LockedAppend.locked_append_partial h hr).1⟩

/-- C113.  After a crash every record is the one written last, whole, and nothing outside the records has changed. -/
theorem records_crash_partial {P : Records.Plan} {x y : Records.Conf} {ms : List Records.Move} (h : Records.Start P x) (hr : Records.Runs P x ms y)
    {D : Nat → Prop} {b : Snap} (hs : Sess D b y.s) {q : List Name} (hq : ∀ n ∈ q, Good n) (hi : Walk y.s.fs.inodes rootIno q P.i) :
    ∃ s1, reboot (diskOf b y.s.fs) = some s1 ∧ Walk s1.fs.inodes rootIno q P.i ∧
      (∀ k, k < P.count → Records.record P s1 k = Records.after (Records.record P x.s) y.events k) ∧
      (bytes s1 P.i).drop (P.size * P.count) = (bytes x.s P.i).drop (P.size * P.count) := by
  obtain ⟨s1, e, w, hb⟩ := crash_file hs hq hi (hr.ok h.ok).file
  refine ⟨s1, e, w, fun k hk => ?_, ?_⟩
  · rw [← (Records.records_exact_partial h hr).2.1 k hk]
    simp only [Records.record, hb]
  · rw [hb]; exact Records.records_outside_partial h hr

/-! ## A concrete case: the crash after record 1 was written, and after a transaction -/

open Verif.Records (plan start ready ready_start) in
example : ∃ s1, reboot (diskOf (snapOf format) (Records.next plan start (.put 0 1 [5, 6])).s.fs) = some s1 ∧
    Records.record plan s1 1 = [5, 6] := by
  have hr : Records.Runs plan start [.put 0 1 [5, 6]] (Records.next plan start (.put 0 1 [5, 6])) := .cons ⟨by decide, by decide, rfl⟩ (.nil _)
  have hs : Sess (fun _ => False) (snapOf format) (Records.next plan start (.put 0 1 [5, 6])).s :=
    Sess.run (Sess.run .init [(0, .openP Records.pL 0o102#32 0o644#32), (0, .write 3 [1, 2, 3, 4, 9]), (1, .openP Records.pL 2#32 0#32), (1, .read 3 3)]
      (by decide +kernel) (.inr (by decide +kernel))) [(0, .pwrite 3 [5, 6] 2)] (by decide +kernel) (.inr (by decide +kernel))
  have hi : Walk (Records.next plan start (.put 0 1 [5, 6])).s.fs.inodes rootIno [[108]] 9 := by
    obtain ⟨cg, hc, hp⟩ : ∃ cg, (Records.next plan start (.put 0 1 [5, 6])).s.cages 0 = some cg ∧ cg.path Records.pL = [[108]] :=
      ⟨_, rfl, by decide +kernel⟩
    have := Mailbox.leads_of (c := 0) (hr.ok ready_start.ok).reach hc (p := Records.pL) (i := 9) (by rw [hp]; decide +kernel)
    unfold Leads at this; rw [hp] at this; exact this
  obtain ⟨s1, e, -, h, -⟩ := records_crash_partial ready_start hr hs (q := [[108]]) (by intro n hn; revert n; decide) hi
  exact ⟨s1, e, (h 1 (by decide)).trans (by decide +kernel)⟩

end Verif.LogCrash
