import Verif.TouchLemmas

/-!
# The arms of the dispatcher stay inside what they were given
-/

namespace Verif.Touch
open Verif.Dispatch

/-- What is given, in a state. -/
abbrev gv (w : World) (call : Nat) (args : List (BitVec 64)) : List Region :=
  given w.mem w.segment w.attached call args

theorem mem_opt {a : BitVec 64} {r : Region} (h : a ≠ 0#64) : r ∈ opt a r := by
  unfold opt; rw [if_neg h]; exact List.mem_singleton.2 rfl

theorem fine_opt_read {R : List Region} {a : BitVec 64} {b n k : Nat} {r : Region}
    (hr : a ≠ 0#64 → r ∈ R) (h : r = .inn b k ∨ r = .out b k) (hn : n ≤ k) :
    Fine R (if a = 0#64 then [] else [.read b n]) := by
  refine fine_ite (fun _ => fine_nil R) (fun q => ?_)
  rcases h with rfl | rfl
  · exact fine_one (hr q) (within_le hn)
  · exact fine_one (hr q) (within_le hn)

theorem fine_opt_write {R : List Region} {a : BitVec 64} {b n k : Nat}
    (hr : a ≠ 0#64 → Region.out b k ∈ R) (hn : n ≤ k) :
    Fine R (if a = 0#64 then [] else [.write b n]) :=
  fine_ite (fun _ => fine_nil R) (fun q => fine_one (hr q) (within_le hn))

theorem fine_withAddr {w : World} {R : List Region} {a l : BitVec 64} {ks : List Kind}
    {args : List (BitVec 64)} {h : List Val → List Acc} (hf : FullAddr w.mem a l)
    (hR : Region.inn a.toNat l.toNat ∈ R) (hp : Fine R (plain w ks args h)) :
    Fine R (withAddr w a l ks args h) := by
  unfold withAddr
  split
  · exact fine_nil R
  · exact fine_append (fine_sockaddr hf hR) (fine_ite (fun _ => hp) (fun _ => fine_nil R))

/-- Single reads and writes in plain arms. -/
theorem fine_early_write {R : List Region} {w : World} {a n k : Nat} (h : Region.out a k ∈ R)
    (hn : n ≤ k) : Fine R (if w.early then [] else [.write a n]) :=
  fine_ite (fun _ => fine_nil R) (fun _ => fine_one h (within_le hn))

theorem fine_early_read {R : List Region} {w : World} {a n k : Nat} (h : Region.inn a k ∈ R)
    (hn : n ≤ k) : Fine R (if w.early then [] else [.read a n]) :=
  fine_ite (fun _ => fine_nil R) (fun _ => fine_one h (within_le hn))

macro "here" : tactic =>
  `(tactic| first | exact List.mem_cons_self | exact List.mem_cons_of_mem _ List.mem_cons_self)

theorem fine_int_arms (w : World) (args : List (BitVec 64)) :
    Fine (gv w 15 args) (touches w 15 args) ∧ Fine (gv w 147 args) (touches w 147 args) ∧
    Fine (gv w 149 args) (touches w 149 args) ∧ Fine (gv w 150 args) (touches w 150 args) := by
  refine ⟨?_, ?_, ?_, ?_⟩
  · refine fine_plain (by intro r h; cases h) (fun _ => ?_)
    refine fine_ite (fun _ => fine_nil _) (fun _ => fine_ite (fun q => ?_) (fun _ => fine_nil _))
    exact fine_one (mem_opt q.2) (within_le (Nat.le_refl _))
  all_goals
    refine fine_plain (by intro r h; cases h) (fun _ => ?_)
  · exact fine_append (fine_opt_write (k := 24) (fun q => List.mem_append_right _ (mem_opt q)) (Nat.le_refl _))
      (fine_opt_read (k := 24) (fun q => List.mem_append_left _ (mem_opt q)) (.inl rfl) (Nat.le_refl _))
  · exact fine_append (fine_opt_write (k := 8) (fun q => List.mem_append_right _ (mem_opt q)) (Nat.le_refl _))
      (fine_opt_read (k := 8) (fun q => List.mem_append_left _ (mem_opt q)) (.inl rfl) (Nat.le_refl _))
  · exact fine_ite (fun _ => fine_append
      (fine_opt_write (k := 32) (fun q => List.mem_append_right _ (mem_opt q)) (Nat.le_refl _))
      (fine_opt_read (k := 32) (fun q => List.mem_append_left _ (mem_opt q)) (.inl rfl) (Nat.le_refl _)))
      (fun _ => fine_nil _)

theorem fine_struct_arms (w : World) (args : List (BitVec 64)) :
    Fine (gv w 9 args) (touches w 9 args) ∧ Fine (gv w 17 args) (touches w 17 args) ∧
    Fine (gv w 19 args) (touches w 19 args) ∧ Fine (gv w 26 args) (touches w 26 args) ∧
    Fine (gv w 49 args) (touches w 49 args) ∧ Fine (gv w 57 args) (touches w 57 args) ∧
    Fine (gv w 66 args) (touches w 66 args) ∧ Fine (gv w 67 args) (touches w 67 args) := by
  refine ⟨?_, ?_, ?_, ?_, ?_, ?_, ?_, ?_⟩
  all_goals
    refine fine_plain (by intro r h; first | (cases h; done) | (rw [List.mem_singleton.1 h]; here))
      (fun _ => ?_)
    first
      | exact fine_early_write (k := 104) (by here) (Nat.le_refl _)
      | exact fine_early_write (k := 112) (by here) (Nat.le_refl _)
      | exact fine_early_write (k := 8) (by here) (Nat.le_refl _)
      | exact fine_early_read (k := 8) (by here) (Nat.le_refl _)

theorem fine_buf_arms (w : World) (args : List (BitVec 64)) :
    Fine (gv w 12 args) (touches w 12 args) ∧ Fine (gv w 13 args) (touches w 13 args) ∧
    Fine (gv w 34 args) (touches w 34 args) ∧ Fine (gv w 36 args) (touches w 36 args) ∧
    Fine (gv w 126 args) (touches w 126 args) ∧ Fine (gv w 127 args) (touches w 127 args) := by
  refine ⟨?_, ?_, ?_, ?_, ?_, ?_⟩
  all_goals
    refine fine_plain (by intro r h; cases h) (fun _ => ?_)
    first
      | exact fine_recv (by here)
      | exact fine_early_write (by here) (Nat.min_le_right _ _)
      | exact fine_early_read (by here) (Nat.min_le_right _ _)

theorem fine_path_arms (w : World) (args : List (BitVec 64)) (call : Nat)
    (h : call ∈ [2, 4, 5, 6, 10, 16, 130, 131, 132, 133]) :
    Fine (gv w call args) (touches w call args) := by
  simp only [List.mem_cons, List.not_mem_nil, or_false] at h
  rcases h with rfl | rfl | rfl | rfl | rfl | rfl | rfl | rfl | rfl | rfl
  all_goals
    refine fine_plain ?_ (fun _ => fine_nil _)
    intro r h
    first
      | (rw [List.mem_singleton.1 h]; here)
      | exact h

theorem fine_map_arms (w : World) (args : List (BitVec 64)) :
    Fine (gv w 21 args) (touches w 21 args) ∧ Fine (gv w 22 args) (touches w 22 args) ∧
    Fine (gv w 63 args) (touches w 63 args) := by
  refine ⟨?_, ?_, ?_⟩
  all_goals refine fine_plain (by intro r h; cases h) (fun _ => ?_)
  · exact fine_ite (fun _ => fine_nil _) (fun _ => fine_ite (fun _ => fine_nil _)
      (fun _ => fine_one List.mem_cons_self (within_le (Nat.le_refl _))))
  · exact fine_ite (fun _ => fine_nil _)
      (fun _ => fine_one List.mem_cons_self (within_le (Nat.le_refl _)))
  · exact fine_ite (fun _ => fine_nil _)
      (fun _ => fine_one List.mem_cons_self (within_le (Nat.le_refl _)))

theorem fine_shmdt (w : World) (args : List (BitVec 64)) (hc : Careful w.mem w.attached 64 args) :
    Fine (gv w 64 args) (touches w 64 args) := by
  refine fine_plain (by intro r h; cases h) (fun _ => ?_)
  show Fine _ (match w.attached.find? (fun p => p.1.setWidth 32 == (args.getD 0 0#64).setWidth 32) with
    | some p => [Acc.map (args.getD 0 0#64).toNat p.2]
    | none => [])
  split
  · rename_i p hp
    have hm := List.mem_of_find?_eq_some hp
    have he := List.find?_some hp
    have he : p.1.setWidth 32 = (args.getD 0 0#64).setWidth 32 := eq_of_beq he
    have he := congrArg BitVec.toNat he
    rw [BitVec.toNat_setWidth, BitVec.toNat_setWidth] at he
    have := hc p hm he
    refine fine_one (r := .area (args.getD 0 0#64).toNat p.2) ?_ (within_le (Nat.le_refl _))
    exact List.mem_map.2 ⟨p, List.mem_filter.2 ⟨hm, by simpa using this⟩, rfl⟩
  · exact fine_nil _

theorem toNat_ofNat32 {a : BitVec 64} (h : a.toNat < 2 ^ 32) :
    (BitVec.ofNat 32 a.toNat).toNat = a.toNat := by
  rw [BitVec.toNat_ofNat]; exact Nat.mod_eq_of_lt h

theorem fine_size_arms (w : World) (args : List (BitVec 64)) :
    Fine (gv w 23 args) (touches w 23 args) ∧ Fine (gv w 47 args) (touches w 47 args) ∧
    Fine (gv w 125 args) (touches w 125 args) ∧ Fine (gv w 146 args) (touches w 146 args) := by
  refine ⟨?_, ?_, ?_, ?_⟩
  all_goals refine fine_plain (by intro r h; cases h) (fun hw => ?_)
  · refine fine_ite (fun _ => fine_nil _) (fun _ => fine_getdents ?_)
    rw [toNat_ofNat32 hw.2.2.1]; here
  · refine fine_ite (fun _ => fine_nil _) (fun _ => fine_ite (fun _ => fine_nil _) (fun q => ?_))
    rw [toNat_ofNat32 hw.2.1] at q
    exact fine_one List.mem_cons_self (within_le (Nat.le_of_not_lt q))
  · refine fine_ite (fun _ => fine_nil _) (fun q => ?_)
    refine fine_one (r := .out (args.getD 0 0#64).toNat (args.getD 1 0#64).toNat) ?_
      (within_le (Nat.min_le_right _ _))
    show _ ∈ if (args.getD 1 0#64).toInt < 0 then [] else _
    rw [if_neg q]; here
  · exact fine_ite (fun q => fine_one List.mem_cons_self (within_le (Nat.le_of_lt q))) (fun _ => fine_nil _)

theorem fine_writev_arm (w : World) (args : List (BitVec 64))
    (hc : Careful w.mem w.attached 170 args) : Fine (gv w 170 args) (touches w 170 args) := by
  have hc : 0 ≤ sint (args.getD 2 0#64) := hc
  refine fine_plain (by intro r h; cases h) (fun hw => ?_)
  have hg : gv w 170 args = .inn (args.getD 1 0#64).toNat (16 * (sint (args.getD 2 0#64)).toNat) ::
      iovecs w.mem (args.getD 1 0#64).toNat (sint (args.getD 2 0#64)).toNat := by
    show (if sint (args.getD 2 0#64) < 0 then [] else _) = _
    rw [if_neg (Int.not_lt.2 hc)]
  rw [hg]
  exact fine_writev hc List.mem_cons_self (fun r hr => List.mem_cons_of_mem _ hr)

/-! ## The arms with more logic -/

theorem fine_addr_in (w : World) (args : List (BitVec 64)) (call : Nat)
    (h : call = 33 ∨ call = 38) (hc : Careful w.mem w.attached call args) :
    Fine (gv w call args) (touches w call args) := by
  rcases h with rfl | rfl <;>
    exact fine_withAddr hc List.mem_cons_self
      (fine_plain (by intro r h; cases h) (fun _ => fine_nil _))

theorem fine_sendto (w : World) (args : List (BitVec 64))
    (hc : Careful w.mem w.attached 35 args) : Fine (gv w 35 args) (touches w 35 args) := by
  refine fine_withAddr hc (by here) (fine_plain (by intro r h; cases h) (fun _ => ?_))
  exact fine_early_read (k := (args.getD 2 0#64).toNat) List.mem_cons_self (Nat.min_le_right _ _)

theorem fine_recvfrom (w : World) (args : List (BitVec 64)) :
    Fine (gv w 37 args) (touches w 37 args) := by
  have hp : Fine (gv w 37 args) (plain w [.int, .ptr, .any, .int] args (fun vs =>
      match vs with
      | [_, .word b, .word n, .i32 f] => recvCall w b.toNat n.toNat f.toNat
      | _ => [])) :=
    fine_plain (by intro r h; cases h) (fun _ => fine_recv
      (List.mem_append_left _ (List.mem_append_left _ List.mem_cons_self)))
  refine fine_ite (fun _ => hp) (fun _ => fine_ite (fun q => ?_) (fun _ => fine_nil _))
  have h1 : Region.out (args.getD 5 0#64).toNat 4 ∈ gv w 37 args :=
    List.mem_append_left _ (List.mem_append_right _ (mem_opt q.2))
  have h2 : Region.out (args.getD 4 0#64).toNat (peek w.mem (args.getD 5 0#64).toNat 4) ∈
      gv w 37 args := List.mem_append_right _ (mem_opt q.2)
  exact fine_append (fine_append (fine_one h1 (within_le (Nat.le_refl _))) hp)
    (fine_ite (fun _ => fine_copyOut h1 h2) (fun _ => fine_nil _))

theorem fine_addr_out (w : World) (args : List (BitVec 64)) (call : Nat)
    (h : call = 40 ∨ call = 144 ∨ call = 145) : Fine (gv w call args) (touches w call args) := by
  have hp : ∀ R, Fine R (plain w [.int] args (fun _ => [])) :=
    fun R => fine_plain (by intro r h; cases h) (fun _ => fine_nil _)
  rcases h with rfl | rfl | rfl
  · refine fine_ite (fun _ => hp _) (fun _ => fine_ite (fun q => ?_) (fun _ => fine_nil _))
    exact fine_append (hp _) (fine_ite (fun _ => fine_copyOut (List.mem_append_left _ (mem_opt q.2))
      (List.mem_append_right _ (mem_opt q.2))) (fun _ => fine_nil _))
  · refine fine_ite (fun _ => fine_nil _) (fun q => ?_)
    have q : args.getD 2 0#64 ≠ 0#64 := fun e => q (.inr e)
    exact fine_append (hp _) (fine_ite (fun _ => fine_copyOut (List.mem_append_left _ (mem_opt q))
      (List.mem_append_right _ (mem_opt q))) (fun _ => fine_nil _))
  · refine fine_ite (fun _ => fine_nil _) (fun q => ?_)
    have q : args.getD 2 0#64 ≠ 0#64 := fun e => q (.inr e)
    exact fine_append (hp _) (fine_ite (fun _ => fine_copyOut (List.mem_append_left _ (mem_opt q))
      (List.mem_append_right _ (mem_opt q))) (fun _ => fine_nil _))

theorem fine_getsockopt (w : World) (args : List (BitVec 64)) :
    Fine (gv w 43 args) (touches w 43 args) := by
  refine fine_ite (fun _ => fine_nil _) (fun q => ?_)
  have q : args.getD 4 0#64 ≠ 0#64 := fun e => q (.inr e)
  refine fine_append (fine_one (List.mem_append_left _ (mem_opt q)) (within_le (Nat.le_refl 4)))
    (fine_ite (fun _ => fine_nil _) (fun e => ?_))
  have e : num w.mem (args.getD 4 0#64).toNat 4 = 4 := Decidable.not_not.1 e
  rw [num_eq_peek] at e
  refine fine_append (fine_plain (by intro r h; cases h) (fun _ => fine_nil _))
    (fine_ite (fun _ => ?_) (fun _ => fine_nil _))
  exact fine_one (List.mem_append_right _ (mem_opt q)) (within_le (Nat.le_of_eq e.symm))

theorem fine_setsockopt (w : World) (args : List (BitVec 64)) :
    Fine (gv w 44 args) (touches w 44 args) := by
  refine fine_ite (fun q => ?_) (fun _ => fine_nil _)
  split
  · exact fine_nil _
  · refine fine_ite (fun _ => fine_nil _) (fun e => ?_)
    have e : args.getD 4 0#64 = 4#64 := Decidable.not_not.1 e
    have e4 : (args.getD 4 0#64).toNat = 4 := by rw [e]; rfl
    exact fine_one (mem_opt q) (within_le (Nat.le_of_eq e4.symm))

theorem fine_select (w : World) (args : List (BitVec 64)) :
    Fine (gv w 46 args) (touches w 46 args) := by
  have m1 : args.getD 1 0#64 ≠ 0#64 → Region.out (args.getD 1 0#64).toNat 128 ∈ gv w 46 args :=
    fun q => List.mem_append_left _ (List.mem_append_left _ (List.mem_append_left _ (mem_opt q)))
  have m2 : args.getD 2 0#64 ≠ 0#64 → Region.out (args.getD 2 0#64).toNat 128 ∈ gv w 46 args :=
    fun q => List.mem_append_left _ (List.mem_append_left _ (List.mem_append_right _ (mem_opt q)))
  have m3 : args.getD 3 0#64 ≠ 0#64 → Region.out (args.getD 3 0#64).toNat 128 ∈ gv w 46 args :=
    fun q => List.mem_append_left _ (List.mem_append_right _ (mem_opt q))
  have m4 : args.getD 4 0#64 ≠ 0#64 → Region.out (args.getD 4 0#64).toNat 16 ∈ gv w 46 args :=
    fun q => List.mem_append_right _ (mem_opt q)
  show Fine _ (selectArm w args)
  unfold selectArm
  dsimp only
  split
  · exact fine_nil _
  · refine fine_ite (fun _ => fine_nil _) (fun _ => ?_)
    refine fine_append (fine_opt_read m4 (.inr rfl) (Nat.le_refl _))
      (fine_ite (fun _ => fine_nil _) (fun _ => ?_))
    exact fine_append (fine_append (fine_append (fine_opt_read m1 (.inr rfl) (Nat.le_refl _))
      (fine_opt_read m2 (.inr rfl) (Nat.le_refl _))) (fine_opt_read m3 (.inr rfl) (Nat.le_refl _)))
      (fine_ite (fun _ => fine_nil _) (fun _ => fine_append (fine_opt_write m1 (Nat.le_refl _))
        (fine_opt_write m2 (Nat.le_refl _))))

theorem fine_poll (w : World) (args : List (BitVec 64)) :
    Fine (gv w 48 args) (touches w 48 args) := by
  refine fine_ite (fun _ => fine_nil _) (fun _ => fine_ite (fun _ => ?_) (fun _ => fine_nil _))
  exact fine_append (fine_one List.mem_cons_self (within_le (Nat.le_refl _)))
    (fine_one List.mem_cons_self (within_le (Nat.le_refl _)))

theorem fine_epoll_wait (w : World) (args : List (BitVec 64)) :
    Fine (gv w 58 args) (touches w 58 args) := by
  show Fine _ (epollWaitArm w args)
  unfold epollWaitArm
  dsimp only
  split
  · exact fine_nil _
  · refine fine_ite (fun _ => fine_nil _) (fun _ => ?_)
    split
    · exact fine_nil _
    · refine fine_ite (fun _ => fine_nil _) (fun _ => fine_ite (fun _ => ?_) (fun _ => fine_nil _))
      refine fine_ite (fun _ => fine_nil _) (fun _ => fine_ite (fun _ => fine_nil _) (fun q => ?_))
      rw [sint_eq] at q ⊢
      refine fine_epoll ?_ _ 0 (by omega)
      exact List.mem_cons_self

theorem fine_shmctl (w : World) (args : List (BitVec 64)) :
    Fine (gv w 65 args) (touches w 65 args) := by
  show Fine _ (shmctlArm w args)
  unfold shmctlArm
  dsimp only
  split
  · exact fine_nil _
  · refine fine_ite (fun _ => ?_) (fun _ => fine_nil _)
    refine fine_ite (fun _ => fine_nil _) (fun q => ?_)
    split
    · exact fine_nil _
    · exact fine_early_write (k := 80) (mem_opt q) (Nat.le_refl _)

theorem fine_timed (w : World) (args : List (BitVec 64)) (call : Nat) (h : call = 80 ∨ call = 94) :
    Fine (gv w call args) (touches w call args) := by
  rcases h with rfl | rfl
  · show Fine _ (timedCond w args)
    unfold timedCond timespecAccs
    dsimp only
    split
    · exact fine_nil _
    · exact fine_opt_read (k := 16) (fun q => mem_opt q) (.inl rfl) (Nat.le_refl _)
  · show Fine _ (timedSem w args)
    unfold timedSem timespecAccs
    dsimp only
    split
    · exact fine_nil _
    · exact fine_opt_read (k := 16) (fun q => mem_opt q) (.inl rfl) (Nat.le_refl _)

end Verif.Touch
