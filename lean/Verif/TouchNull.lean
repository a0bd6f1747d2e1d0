import Verif.TouchArms

/-!
# The arms of the dispatcher do not touch address zero, and change nothing when they refuse
-/

namespace Verif.Touch
open Verif.Dispatch

/-- No access at address zero. -/
def NN (xs : List Acc) : Prop := ∀ x ∈ xs, ¬ AtNull x

theorem nn_nil : NN [] := by intro x h; cases h

theorem nn_append {xs ys : List Acc} (h : NN xs) (k : NN ys) : NN (xs ++ ys) := by
  intro x hx
  rcases List.mem_append.1 hx with hx | hx
  · exact h x hx
  · exact k x hx

theorem nn_ite {p : Prop} [Decidable p] {xs ys : List Acc} (h : p → NN xs) (k : ¬ p → NN ys) :
    NN (if p then xs else ys) := by
  split
  · exact h ‹_›
  · exact k ‹_›

theorem pos_of {a : BitVec 64} (h : a ≠ 0#64) : a.toNat ≠ 0 := by
  intro e
  exact h (BitVec.eq_of_toNat_eq (by simpa using e))

theorem nn_read {a n : Nat} (h : a ≠ 0) : NN [.read a n] := by
  intro x hx; rw [List.mem_singleton] at hx; subst hx; exact fun q => h q.1

theorem nn_write {a n : Nat} (h : a ≠ 0) : NN [.write a n] := by
  intro x hx; rw [List.mem_singleton] at hx; subst hx; exact fun q => h q.1

theorem nn_map {a n : Nat} (h : a ≠ 0) : NN [.map a n] := by
  intro x hx; rw [List.mem_singleton] at hx; subst hx; exact fun q => h q

theorem nn_plain {w : World} {ks : List Kind} {args : List (BitVec 64)} {h : List Val → List Acc}
    (hh : Wf w.utf8 args 0 ks → NN (h (vals args 0 ks))) : NN (plain w ks args h) := by
  refine nn_append ?_ ?_
  · intro x hx
    obtain ⟨a, h0, rfl, _⟩ := argAccs_mem hx
    exact pos_of h0
  · rcases checkArgs_cases w.utf8 args ks with ⟨hw, he⟩ | ⟨_, e, he⟩
    · rw [he]; exact hh hw
    · rw [he]; exact nn_nil

theorem nn_recv {w : World} {a n f : Nat} (h : a ≠ 0) : NN (recvCall w a n f) := by
  unfold recvCall recvBuf
  refine nn_ite (fun _ => nn_nil) (fun _ => nn_ite (fun _ => ?_) (fun _ => nn_write h))
  exact nn_append (nn_ite (fun _ => nn_nil) (fun _ => nn_write h))
    (nn_ite (fun _ => nn_nil) (fun _ => nn_append (nn_write (by omega))
      (nn_ite (fun _ => nn_read (by omega)) (fun _ => nn_nil))))

theorem nn_pack (rs : List Getdents.Rec) : ∀ a, a ≠ 0 → NN (packAccs a rs) := by
  induction rs with
  | nil => intro a _; exact nn_nil
  | cons r rs ih =>
    intro a h
    have : packAccs a (r :: rs) = [.write a Getdents.clipped] ++
      ([.write (a + Getdents.clipped) r.tail.length] ++
        packAccs (a + Getdents.clipped + r.tail.length) rs) := rfl
    rw [this]
    exact nn_append (nn_write h) (nn_append (nn_write (by omega)) (ih _ (by omega)))

theorem nn_epoll {a max : Nat} (h : a ≠ 0) (rs : List Bool) : ∀ c, NN (epollAccs a max c rs) := by
  induction rs with
  | nil => intro c; exact nn_nil
  | cons r rs ih =>
    intro c
    cases r with
    | false => exact ih c
    | true =>
      have : epollAccs a max c (true :: rs) = [.write (a + sizeEpoll * c) sizeEpoll] ++
        (if c + 1 ≥ max then [] else epollAccs a max (c + 1) rs) := rfl
      rw [this]
      exact nn_append (nn_write (by omega)) (nn_ite (fun _ => nn_nil) (fun _ => ih _))

theorem nn_sockaddr {w : World} {a : BitVec 64} {n : Nat} : NN (sockaddrAccs w a n).1 := by
  unfold sockaddrAccs
  split
  · exact nn_nil
  · have h := pos_of ‹_›
    split
    · exact nn_append (nn_read h) (nn_read h)
    · exact nn_read h

theorem nn_withAddr {w : World} {a l : BitVec 64} {ks : List Kind} {args : List (BitVec 64)}
    {h : List Val → List Acc} (hp : NN (plain w ks args h)) : NN (withAddr w a l ks args h) := by
  unfold withAddr
  split
  · exact nn_nil
  · exact nn_append nn_sockaddr (nn_ite (fun _ => hp) (fun _ => nn_nil))

theorem nn_copyOut {w : World} {a l : BitVec 64} (h1 : a ≠ 0#64) (h2 : l ≠ 0#64) :
    NN (copyOutAccs w a l) :=
  nn_append (nn_read (pos_of h2)) (nn_append (nn_write (pos_of h1)) (nn_write (pos_of h2)))

theorem nn_opt_read {a : BitVec 64} {n : Nat} :
    NN (if a = 0#64 then [] else [.read a.toNat n]) :=
  nn_ite (fun _ => nn_nil) (fun q => nn_read (pos_of q))

theorem nn_opt_write {a : BitVec 64} {n : Nat} :
    NN (if a = 0#64 then [] else [.write a.toNat n]) :=
  nn_ite (fun _ => nn_nil) (fun q => nn_write (pos_of q))

theorem nn_iov {w : World} {a j k : Nat} (h : a ≠ 0)
    (hb : ∀ i < k, peek w.mem (a + 16 * i + 8) 8 ≠ 0 → peek w.mem (a + 16 * i) 8 ≠ 0) (hj : j ≤ k) :
    NN ((List.range j).flatMap (iovAcc w a)) := by
  intro x hx
  obtain ⟨i, hi, hx⟩ := List.mem_flatMap.1 hx
  have hi := List.mem_range.1 hi
  rcases List.mem_cons.1 hx with rfl | hx
  · intro q
    have := q.1
    omega
  · rw [List.mem_singleton] at hx
    subst hx
    intro q
    have q1 := q.1
    have q2 := q.2
    rw [num_eq_peek] at q1 q2
    exact hb i (by omega) q2 q1

theorem nn_writev {w : World} {a : Nat} {v : BitVec 32} (h : a ≠ 0) (h0 : 0 ≤ v.toInt)
    (hb : ∀ i < v.toInt.toNat, peek w.mem (a + 16 * i + 8) 8 ≠ 0 → peek w.mem (a + 16 * i) 8 ≠ 0) :
    NN (writevAccs w a v) := by
  rw [toNat_of_nonneg h0] at hb
  unfold writevAccs
  refine nn_ite (fun _ => nn_nil) (fun _ => ?_)
  split
  · exact nn_ite (fun _ => nn_nil) (fun _ => nn_iov h hb (Nat.le_refl _))
  · refine nn_ite (fun _ => nn_nil) (fun _ => nn_iov h hb ?_)
    rw [usizeOf_nonneg h0]; exact Nat.min_le_right _ _
  · rw [usizeOf_nonneg h0]; exact nn_iov h hb (Nat.le_refl _)
  · rw [usizeOf_nonneg h0]; exact nn_iov h hb (Nat.le_refl _)
  · exact nn_nil

theorem nn_arms1 (w : World) (args : List (BitVec 64)) (call : Nat)
    (h : call ∈ [9, 12, 13, 15, 17, 19, 21, 22, 23, 26, 34, 36]) : NN (touches w call args) := by
  simp only [List.mem_cons, List.not_mem_nil, or_false] at h
  rcases h with rfl | rfl | rfl | rfl | rfl | rfl | rfl | rfl | rfl | rfl | rfl | rfl
  all_goals refine nn_plain (fun hw => ?_)
  · exact nn_ite (fun _ => nn_nil) (fun _ => nn_write (pos_of hw.2.1))
  · exact nn_recv (pos_of hw.2.1)
  · exact nn_ite (fun _ => nn_nil) (fun _ => nn_read (pos_of hw.2.1))
  · exact nn_ite (fun _ => nn_nil) (fun _ => nn_ite (fun q => nn_read (pos_of q.2)) (fun _ => nn_nil))
  · exact nn_ite (fun _ => nn_nil) (fun _ => nn_write (pos_of hw.2.1))
  · exact nn_ite (fun _ => nn_nil) (fun _ => nn_write (pos_of hw.2.1))
  · exact nn_ite (fun _ => nn_nil) (fun _ => nn_ite (fun _ => nn_nil) (fun _ => nn_map (pos_of hw.1)))
  · exact nn_ite (fun _ => nn_nil) (fun _ => nn_map (pos_of hw.1))
  · exact nn_ite (fun _ => nn_nil) (fun _ => nn_pack _ _ (pos_of hw.2.1))
  · exact nn_ite (fun _ => nn_nil) (fun _ => nn_write (pos_of hw.2.1))
  · exact nn_ite (fun _ => nn_nil) (fun _ => nn_read (pos_of hw.2.1))
  · exact nn_recv (pos_of hw.2.1)

theorem nn_arms2 (w : World) (args : List (BitVec 64)) (call : Nat)
    (h : call ∈ [47, 49, 57, 63, 66, 67, 125, 126, 127, 146, 147, 149, 150]) :
    NN (touches w call args) := by
  simp only [List.mem_cons, List.not_mem_nil, or_false] at h
  rcases h with rfl | rfl | rfl | rfl | rfl | rfl | rfl | rfl | rfl | rfl | rfl | rfl | rfl
  all_goals refine nn_plain (fun hw => ?_)
  · exact nn_ite (fun _ => nn_nil) (fun _ => nn_ite (fun _ => nn_nil) (fun _ => nn_write (pos_of hw.1)))
  · exact nn_ite (fun _ => nn_nil) (fun _ => nn_write (pos_of hw.2.2.2.1))
  · exact nn_ite (fun _ => nn_nil) (fun _ => nn_read (pos_of hw.2.2.2.1))
  · exact nn_ite (fun _ => nn_nil) (fun _ => nn_map (pos_of hw.2.1))
  · exact nn_ite (fun _ => nn_nil) (fun _ => nn_write (pos_of hw.1))
  · exact nn_ite (fun _ => nn_nil) (fun _ => nn_write (pos_of hw.1))
  · exact nn_ite (fun _ => nn_nil) (fun _ => nn_write (pos_of hw.1))
  · exact nn_ite (fun _ => nn_nil) (fun _ => nn_write (pos_of hw.2.1))
  · exact nn_ite (fun _ => nn_nil) (fun _ => nn_read (pos_of hw.2.1))
  · exact nn_ite (fun _ => nn_write (pos_of hw.1)) (fun _ => nn_nil)
  · exact nn_append nn_opt_write nn_opt_read
  · exact nn_append nn_opt_write nn_opt_read
  · exact nn_ite (fun _ => nn_append nn_opt_write nn_opt_read) (fun _ => nn_nil)

theorem nn_shmdt (w : World) (args : List (BitVec 64)) : NN (touches w 64 args) := by
  refine nn_plain (fun hw => ?_)
  show NN (match w.attached.find? (fun p => p.1.setWidth 32 == (args.getD 0 0#64).setWidth 32) with
    | some p => [Acc.map (args.getD 0 0#64).toNat p.2]
    | none => [])
  split
  · exact nn_map (pos_of hw.1)
  · exact nn_nil

theorem nn_arms3 (w : World) (args : List (BitVec 64)) (call : Nat)
    (h : call ∈ [33, 35, 37, 38, 40, 43, 44, 48, 144, 145]) : NN (touches w call args) := by
  have hp : ∀ ks, NN (plain w ks args (fun _ => [])) := fun ks => nn_plain (fun _ => nn_nil)
  simp only [List.mem_cons, List.not_mem_nil, or_false] at h
  rcases h with rfl | rfl | rfl | rfl | rfl | rfl | rfl | rfl | rfl | rfl
  · exact nn_withAddr (hp _)
  · refine nn_withAddr (nn_plain (fun hw => ?_))
    exact nn_ite (fun _ => nn_nil) (fun _ => nn_read (pos_of hw.2.1))
  · have hr : NN (plain w [.int, .ptr, .any, .int] args (fun vs =>
        match vs with
        | [_, .word b, .word n, .i32 f] => recvCall w b.toNat n.toNat f.toNat
        | _ => [])) := nn_plain (fun hw => nn_recv (pos_of hw.2.1))
    refine nn_ite (fun _ => hr) (fun _ => nn_ite (fun q => ?_) (fun _ => nn_nil))
    exact nn_append (nn_append (nn_read (pos_of q.2)) hr)
      (nn_ite (fun _ => nn_copyOut q.1 q.2) (fun _ => nn_nil))
  · exact nn_withAddr (hp _)
  · exact nn_ite (fun _ => hp _) (fun _ => nn_ite (fun q => nn_append (hp _)
      (nn_ite (fun _ => nn_copyOut q.1 q.2) (fun _ => nn_nil))) (fun _ => nn_nil))
  · refine nn_ite (fun _ => nn_nil) (fun q => ?_)
    have q1 : args.getD 3 0#64 ≠ 0#64 := fun e => q (.inl e)
    have q2 : args.getD 4 0#64 ≠ 0#64 := fun e => q (.inr e)
    exact nn_append (nn_read (pos_of q2)) (nn_ite (fun _ => nn_nil) (fun _ => nn_append (hp _)
      (nn_ite (fun _ => nn_write (pos_of q1)) (fun _ => nn_nil))))
  · refine nn_ite (fun q => ?_) (fun _ => nn_nil)
    split
    · exact nn_nil
    · exact nn_ite (fun _ => nn_nil) (fun _ => nn_read (pos_of q))
  · exact nn_ite (fun _ => nn_nil) (fun q => nn_ite (fun _ => nn_append (nn_read (pos_of q))
      (nn_write (pos_of q))) (fun _ => nn_nil))
  all_goals
    refine nn_ite (fun _ => nn_nil) (fun q => ?_)
    have q1 : args.getD 1 0#64 ≠ 0#64 := fun e => q (.inl e)
    have q2 : args.getD 2 0#64 ≠ 0#64 := fun e => q (.inr e)
    exact nn_append (hp _) (nn_ite (fun _ => nn_copyOut q1 q2) (fun _ => nn_nil))

theorem nn_arms4 (w : World) (args : List (BitVec 64)) (call : Nat)
    (h : call ∈ [46, 58, 65, 80, 94]) : NN (touches w call args) := by
  simp only [List.mem_cons, List.not_mem_nil, or_false] at h
  rcases h with rfl | rfl | rfl | rfl | rfl
  · show NN (selectArm w args)
    unfold selectArm
    dsimp only
    split
    · exact nn_nil
    · refine nn_ite (fun _ => nn_nil) (fun _ => ?_)
      refine nn_append nn_opt_read (nn_ite (fun _ => nn_nil) (fun _ => ?_))
      exact nn_append (nn_append (nn_append nn_opt_read nn_opt_read) nn_opt_read)
        (nn_ite (fun _ => nn_nil) (fun _ => nn_append nn_opt_write nn_opt_write))
  · show NN (epollWaitArm w args)
    unfold epollWaitArm
    dsimp only
    split
    · exact nn_nil
    · refine nn_ite (fun _ => nn_nil) (fun _ => ?_)
      split
      · exact nn_nil
      · exact nn_ite (fun _ => nn_nil) (fun q => nn_ite (fun _ => nn_ite (fun _ => nn_nil)
          (fun _ => nn_ite (fun _ => nn_nil) (fun _ => nn_epoll (pos_of q) _ _))) (fun _ => nn_nil))
  · show NN (shmctlArm w args)
    unfold shmctlArm
    dsimp only
    split
    · exact nn_nil
    · refine nn_ite (fun _ => nn_ite (fun _ => nn_nil) (fun q => ?_)) (fun _ => nn_nil)
      split
      · exact nn_nil
      · exact nn_ite (fun _ => nn_nil) (fun _ => nn_write (pos_of q))
  · show NN (timedCond w args)
    unfold timedCond timespecAccs
    dsimp only
    split
    · exact nn_nil
    · exact nn_opt_read
  · show NN (timedSem w args)
    unfold timedSem timespecAccs
    dsimp only
    split
    · exact nn_nil
    · exact nn_opt_read

end Verif.Touch
