import Verif.SemShmAnswers

/-!
# C94: where it fails, and a history in which it holds
-/

namespace Verif.SemShm

/-- `shmget(key, 4096, IPC_CREAT | 0666)`. -/
def mk (key : Int) : Op := .shm (.get key 4096 0x3B6) none

/-- `shmat`, as it should be without semaphores. -/
def att (id addr : Nat) (pick : Option Nat) : Op := .shm (.at id addr true) pick

/-- `fork`. -/
def child (ch : Nat) : Op := .shm (.fork ch) none

/-- **C94 violated.**  A process-shared semaphore that is not at the first byte of its segment: in a debug build `sem_init` aborts the
program, because the offset in the segment is computed the wrong way round (src/safeposix/syscalls/fs_calls.rs 6438). -/
theorem middle_violated :
    answers true init [(1, mk 5), (1, att 1 0x10000 none), (1, .init 0x10010 true 1)] = [.r (.ok 1), .r (.ok 0x10000), .r .panic] := by
  decide +kernel

/-- **C94 violated.**  The same in a release build: `sem_init` succeeds, but the process next to it, with the segment at the same
address, has no semaphore there; instead its own, private semaphore 32 bytes below has become the shared one. -/
theorem middle_release_violated :
    answers false init [(1, mk 5), (1, att 1 0x10000 none), (1, child 2), (2, .init 0xFFF0 false 7), (2, .getvalue 0xFFF0),
      (1, .init 0x10010 true 1), (1, .post 0x10010), (2, .post 0x10010), (2, .getvalue 0xFFF0)] =
    [.r (.ok 1), .r (.ok 0x10000), .r (.ok 0), .r (.ok 0), .r (.ok 7), .r (.ok 0), .r (.ok 0), .r (.err .EINVAL), .r (.ok 2)] := by
  decide +kernel

/-- **C94 violated.**  Two processes have a segment at different addresses.  One initialises a semaphore at the first byte: the other
does not find it there, but at the address of the first one, which is no memory of its own. -/
theorem address_violated :
    answers true init [(1, mk 5), (1, child 2), (1, att 1 0x10000 none), (2, att 1 0x20000 (some 1)), (1, .init 0x10000 true 1),
      (2, .trywait 0x20000), (2, .trywait 0x10000)] =
    [.r (.ok 1), .r (.ok 0), .r (.ok 0x10000), .r (.ok 0x20000), .r (.ok 0), .r (.err .EINVAL), .r (.ok 0)] := by decide +kernel

/-- **C94 violated.**  A semaphore in a segment is destroyed in the proper way; the next process that attaches the segment brings the
program down (src/safeposix/syscalls/fs_calls.rs 5818: `unwrap` of the entry that was removed). -/
theorem destroyed_violated :
    answers true init [(1, mk 5), (1, child 2), (1, att 1 0x10000 none), (1, .init 0x10000 true 1), (1, .destroy 0x10000), (2, att 1 0x20000 (some 1))] =
    [.r (.ok 1), .r (.ok 0), .r (.ok 0x10000), .r (.ok 0), .r (.ok 0), .r .panic] := by decide +kernel

/-- **C94 violated.**  The last process detaches a segment and it, or another one, attaches it again: the memory is as it was, but the
semaphore in it is gone, and the second process to attach it brings the program down. -/
theorem detached_violated :
    answers true init [(1, mk 5), (1, child 2), (1, att 1 0x10000 none), (1, .init 0x10000 true 1), (1, .shm (.dt 0x10000) none),
      (1, att 1 0x10000 none), (1, .trywait 0x10000), (2, att 1 0x10000 (some 1))] =
    [.r (.ok 1), .r (.ok 0), .r (.ok 0x10000), .r (.ok 0), .r (.ok 1), .r (.ok 0x10000), .r (.err .EINVAL), .r .panic] := by decide +kernel

/-- **C94 violated.**  A semaphore that is not process-shared, in private memory: after a `fork` the child's wait takes the parent's
unit (src/safeposix/syscalls/sys_calls.rs 341: the object is shared, not copied). -/
theorem private_violated :
    answers true init [(1, .init 0x50 false 1), (1, child 2), (2, .wait 0x50), (1, .trywait 0x50)] =
    [.r (.ok 0), .r (.ok 0), .r (.ok 0), .r (.err .EAGAIN)] := by decide +kernel

/-- **C94 violated.**  A process has a segment at two addresses, and another process has it at one of them; after a semaphore was made
there, the first process attaches nothing and detaches nothing, and the second one destroys the semaphore: at its other address the
first process still has it. -/
theorem destroy_violated :
    answers true init [(1, mk 5), (1, child 2), (1, att 1 0x10000 none), (1, .init 0x10000 true 1), (1, att 1 0x20000 (some 1)), (2, att 1 0x10000 (some 1)),
      (2, .destroy 0x10000), (1, .trywait 0x10000), (1, .trywait 0x20000)] =
    [.r (.ok 1), .r (.ok 0), .r (.ok 0x10000), .r (.ok 0), .r (.ok 0x20000), .r (.ok 0x10000), .r (.ok 0), .r (.err .EINVAL), .r (.ok 0)] := by
  decide +kernel

/-! ## A careful history -/

/-- Process 1 makes a segment and a semaphore in it, process 0 attaches the segment at another address and forks, and its child posts. -/
def demo : List (Nat × Op) :=
  [(1, mk 5), (1, att 1 0x10000 none), (1, .init 0x10000 true 1), (0, att 1 0x20000 (some 1)), (0, child 2), (2, .post 0x20000)]

/-- The state after the first `n` of these calls. -/
def at_ (n : Nat) : St := run true init (demo.take n)

theorem rev1 (p : Nat) : (at_ 1).sh.rev p = if p ≤ 1 then some [] else none := rfl
theorem rev2 (p : Nat) : (at_ 2).sh.rev p = if p = 1 then some [(0x10000, 1)] else if p ≤ 1 then some [] else none := rfl
theorem rev3 (p : Nat) : (at_ 3).sh.rev p = if p = 1 then some [(0x10000, 1)] else if p ≤ 1 then some [] else none := rfl

theorem none1 {p a id : Nat} : ¬ Attached (at_ 1) p a id := by
  rintro ⟨rv, hr, hm⟩
  rw [rev1] at hr
  split at hr <;> cases hr
  cases hm

theorem only {s : St} (hrev : ∀ p, s.sh.rev p = if p = 1 then some [(0x10000, 1)] else if p ≤ 1 then some [] else none) {p a id : Nat} :
    Attached s p a id ↔ p = 1 ∧ a = 0x10000 ∧ id = 1 := by
  constructor
  · rintro ⟨rv, hr, hm⟩
    rw [hrev] at hr
    split at hr
    · rename_i e; cases hr
      have := List.mem_singleton.1 hm
      cases this; exact ⟨e, rfl, rfl⟩
    · split at hr <;> cases hr
      cases hm
  · rintro ⟨rfl, rfl, rfl⟩
    exact ⟨[(0x10000, 1)], hrev 1, List.mem_singleton.2 rfl⟩

theorem size_of {s : St} {g : Shm.Seg} (h : s.sh.segs 1 = some g) (e : (s.sh.segs 1).map Shm.Seg.size = some 4096) : g.size = 4096 := by
  rw [h] at e; exact Option.some.inj e

theorem reach1 : Reach true (at_ 1) := .step (op := mk 5) (c := 1) .init trivial

theorem reach2 : Reach true (at_ 2) := by
  refine .step (op := att 1 0x10000 none) (c := 1) reach1 ⟨rfl, fun _ p a => none1, (fun p e => nomatch e), fun g hg => ?_, fun h => absurd rfl h⟩
  have hs := size_of hg rfl
  refine ⟨by rw [hs]; decide, fun d _ => ⟨rfl, fun id' d' h => ?_⟩⟩
  obtain ⟨a, g, ha, -⟩ := h
  exact none1 ha

theorem careful2 : Careful (at_ 2) 1 (.init 0x10000 true 1) := by
  rintro id d ⟨a, g, ha, -, -, e⟩
  obtain ⟨-, rfl, rfl⟩ := (only rev2).1 ha
  refine ⟨rfl, by omega, fun p b hp a => ?_⟩
  obtain ⟨rfl, -, -⟩ := (only rev2).1 hp
  exact Iff.rfl

theorem reach3 : Reach true (at_ 3) := .step (op := .init 0x10000 true 1) (c := 1) reach2 careful2

theorem careful3 : Careful (at_ 3) 0 (att 1 0x20000 (some 1)) := by
  refine ⟨rfl, (fun e => nomatch e), fun p e => ⟨0x10000, (only rev3).2 ⟨(Option.some.inj e).symm, rfl, rfl⟩⟩, fun g hg => ?_,
    fun _ => ⟨1, 0x10000, (only rev3).2 ⟨rfl, rfl, rfl⟩, by decide +kernel⟩⟩
  have hs := size_of hg rfl
  refine ⟨by rw [hs]; decide, fun d _ => ⟨rfl, fun id' d' h => ?_⟩⟩
  obtain ⟨a, g, ha, -⟩ := h
  have := ((only rev3).1 ha).1
  cases this

theorem reach4 : Reach true (at_ 4) := .step (op := att 1 0x20000 (some 1)) (c := 0) reach3 careful3

theorem reach6 : Reach true (at_ 6) := .step (op := .post 0x20000) (c := 2) (.step (op := child 2) (c := 0) reach4 rfl) trivial

theorem place {s : St} {c a : Nat} {rv : List (Nat × Nat)} (hr : s.sh.rev c = some rv) (hm : (a, 1) ∈ rv)
    (hs : (s.sh.segs 1).map Shm.Seg.size = some 4096) : At s c a 1 0 := by
  cases hg : s.sh.segs 1 with
  | none => rw [hg] at hs; cases hs
  | some g => exact ⟨a, g, ⟨rv, hr, hm⟩, hg, by rw [size_of hg hs]; decide, rfl⟩

/-- The hypotheses of `same_partial`, `use_same_partial` and `post_wait_partial` are met, with processes 1 and 2 that have the segment at
different addresses and a semaphore in it: process 1 reads what process 2 posted. -/
example : Reach true (at_ 6) ∧ At (at_ 6) 1 0x10000 1 0 ∧ At (at_ 6) 2 0x20000 1 0 ∧ (step true (at_ 6) 1 (.getvalue 0x10000)).2 = .r (.ok 2) :=
  ⟨reach6, place (rv := [(0x10000, 1)]) rfl (List.mem_singleton.2 rfl) rfl, place (rv := [(0x20000, 1)]) rfl (List.mem_singleton.2 rfl) rfl, by decide +kernel⟩

example : (step true (step true (at_ 6) 1 (.trywait 0x10000)).1 2 (.getvalue 0x20000)).2 = .r (.ok 1) :=
  ((post_wait_partial reach6 (place (rv := [(0x10000, 1)]) rfl (List.mem_singleton.2 rfl) rfl) (place (rv := [(0x20000, 1)]) rfl (List.mem_singleton.2 rfl) rfl)
    (v := 2) (by decide +kernel)).2.1 (by decide)).2

/-- Those of `init_seen_partial`. -/
example : (step true (step true (at_ 2) 1 (.init 0x10000 true 1)).1 1 (.getvalue 0x10000)).2 = .r (.ok 1) :=
  (init_seen_partial reach2 careful2 (place (rv := [(0x10000, 1)]) rfl (List.mem_singleton.2 rfl) rfl) (by decide +kernel) (by decide)).2 1 0x10000
    (place (rv := [(0x10000, 1)]) rfl (List.mem_singleton.2 rfl) rfl)

/-- Those of `attach_seen_partial` and `no_abort_partial`. -/
example : (step true (at_ 3) 0 (att 1 0x20000 (some 1))).1.tab 0 0x20000 = some 0 :=
  (attach_seen_partial (p := 1) reach3 careful3 (by decide +kernel) (place (rv := [(0x10000, 1)]) rfl (List.mem_singleton.2 rfl) rfl)).2.1.trans (by decide +kernel)

example : (step true (at_ 3) 0 (att 1 0x20000 (some 1))).2 ≠ .r .panic :=
  no_abort_partial reach3 careful3 (by decide +kernel) (fun ch pick h => by rcases h with h | h <;> cases h)

/-- Those of `gone_partial` and `kept_partial`: process 1 destroys the semaphore while it is alone. -/
example : Careful (at_ 3) 1 (.destroy 0x10000) ∧ (step true (step true (at_ 3) 1 (.destroy 0x10000)).1 1 (.wait 0x10000)).2 = .r (.err .EINVAL) := by
  have hc : Careful (at_ 3) 1 (.destroy 0x10000) := by
    rintro id d ⟨a, g, ha, -, -, e⟩ p b hp a'
    obtain ⟨-, rfl, rfl⟩ := (only rev3).1 ha
    obtain ⟨rfl, -, -⟩ := (only rev3).1 hp
    exact Iff.rfl
  refine ⟨hc, ?_⟩
  exact (gone_partial reach3 hc (place (rv := [(0x10000, 1)]) rfl (List.mem_singleton.2 rfl) rfl) (by decide +kernel)).2 1 0x10000
    (place (rv := [(0x10000, 1)]) rfl (List.mem_singleton.2 rfl) rfl) .wait

example : (at_ 4).tab 1 0x10000 = some 0 :=
  kept_partial (op := att 1 0x20000 (some 1)) (c := 0) reach3 careful3 (place (rv := [(0x10000, 1)]) rfl (List.mem_singleton.2 rfl) rfl)
    (place (rv := [(0x10000, 1)]) rfl (List.mem_singleton.2 rfl) rfl) (by decide +kernel) (fun h e => by cases e)

/-- Those of `middle_aborts` and `other_address_unseen`. -/
example : (step true (at_ 2) 1 (.init 0x10010 true 1)).2 = .r .panic := by
  refine middle_aborts (id := 1) (d := 0x10) reach2 ?_ (by decide) rfl (by decide)
  cases hg : (at_ 2).sh.segs 1 with
  | none => exact absurd hg (fun h => nomatch h)
  | some g => exact ⟨0x10000, g, (only rev2).2 ⟨rfl, rfl, rfl⟩, hg, by rw [size_of hg rfl]; decide, rfl⟩

example : (step true (at_ 2) 1 (.init 0x10000 true 1)).1.tab 0 0x20000 = none :=
  (other_address_unseen reach2 ((only rev2).2 ⟨rfl, rfl, rfl⟩) rfl (by decide) (fun h => by cases ((only rev2).1 h).2.1) (by decide)).2

/-- Those of the theorems in `SemShmAnswers`, after the third call: process 1 has its semaphore, process 0 has none. -/
example : step true (at_ 3) 1 (.init 0x10000 true 1) = (at_ 3, .r (.err .EBADF)) :=
  (init_refuses (by decide +kernel)).2 (by decide) (by decide +kernel)

example : step true (at_ 3) 0 (.destroy 0x500) = (at_ 3, .r (.err .EINVAL)) := (unknown_refused (by decide +kernel) (by decide +kernel)).1

theorem out0 {id d : Nat} : ¬ At (at_ 3) 0 0x500 id d := by
  rintro ⟨a, g, ha, -⟩; exact absurd ((only rev3).1 ha).1 (by decide)

example : (step true (step true (at_ 3) 0 (.init 0x500 false 7)).1 0 (.getvalue 0x500)).2 = .r (.ok 7) :=
  (init_private_partial reach3 (by decide +kernel) (fun _ _ => out0) (by decide +kernel) (by decide)).2.1

example : (step true (at_ 3) 1 (.post 0x10000)).1.tab 0 0x500 = none :=
  (private_kept_partial reach3 (op := .post 0x10000) trivial (by decide) (by decide +kernel) (fun _ _ => out0)).trans (by decide +kernel)

example : step true (step true (at_ 3) 1 (.trywait 0x10000)).1 1 (.trywait 0x10000) = ((step true (at_ 3) 1 (.trywait 0x10000)).1, .r (.err .EAGAIN)) :=
  ((edge_answers (v := 0) (by decide +kernel)).1 rfl).2.1

example (s' : St) (h : step true (at_ 3) 1 (.shm (.exec 1) none) = (s', .r (.ok 0))) : step true s' 1 (.post 0x10000) = (s', .r (.err .EINVAL)) :=
  exec_none (by decide +kernel) h .post 0x10000

example : (step true (at_ 3) 1 (.shm (.exec 1) none)).2 = .r (.ok 0) := by decide +kernel

example : (step true (step true (at_ 3) 1 (.shm (.dt 0x10000) none)).1 1 (.getvalue 0x10000)).2 = .r (.err .EINVAL) :=
  detach_forgets_partial reach3 ((only rev3).2 ⟨rfl, rfl, rfl⟩)

/-- Two semaphores in one segment, in a release build: both places are recorded. -/
def two : St := run false init [(1, mk 5), (1, att 1 0x10000 none), (1, .init 0x10000 true 1), (1, .init 0x10010 true 1)]

example : two.offs 1 = [0, 4294967280] ∧ (step false two 1 (.shm (.dt 0x10000) none)).1.tab 1 0xfff0 = none :=
  ⟨by decide +kernel, detach_drops_all (rv := [(0x10000, 1)]) (i := 0) (id := 1) (o := 4294967280) rfl rfl (by decide +kernel) (by decide +kernel) (by decide +kernel)⟩

end Verif.SemShm
