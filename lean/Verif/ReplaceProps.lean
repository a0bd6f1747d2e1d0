import Verif.ReplaceLemmas
import Verif.PipelineWitness

/-! # C103: a file replaced by `rename` has the old content or the new, at every moment -/

namespace Verif.Replace
open Verif.Fs Verif.Kernel Verif.Path
open Verif.Pipeline (file_of)

theorem Start.ok {P : Plan} {i j : Nat} {x : Conf} (h : Start P i j x) : ∃ f, Ok P i j f (bytes x.s i) x.left x := by
  obtain ⟨f, h1, h2, h3⟩ := h.fd
  have hl0 := List.eq_nil_of_length_eq_zero (h.reach.inv.content h3).2
  exact ⟨f, h.reach, h.ne, by rw [hl0]; exact h1, h2, by rw [hl0]; exact h3, h.paths, h.dir, h.tmp, h.new, rfl, by rw [hl0]; rfl⟩

/-- Before the rename, or after. -/
def Stage (P : Plan) (i j : Nat) (f : BitVec 32) (O D : List UInt8) (x : Conf) : Prop :=
  (x.done = false ∧ Ok P i j f O D x) ∨ (x.done = true ∧ x.left = [] ∧ Over P i j O D x)

theorem Stage.next {P : Plan} {i j : Nat} {f : BitVec 32} {O D : List UInt8} {x : Conf} (h : Stage P i j f O D x) {m : Move} (hm : Fair P i j x m) :
    Stage P i j f O D (next P x m) := by
  rcases h with ⟨h0, h⟩ | ⟨h0, h1, h⟩
  · cases m with
    | put n => have := h.put h0 n hm; exact .inl ⟨this.2, this.1⟩
    | swap =>
      by_cases hl : x.left = []
      · have := h.swap h0 hl
        refine .inr ⟨this.1, ?_, this.2.1⟩
        simp [Replace.next, h0, hl]
      · simp only [Replace.next, hl, and_false, if_false]
        exact .inl ⟨h0, h⟩
    | other c op => exact .inl ⟨h0, h.other (hm.1 h0).1 (hm.1 h0).2 hm.2⟩
  · cases m with
    | put n => simp only [Replace.next, h0, if_true]; exact .inr ⟨h0, h1, h⟩
    | swap => simp only [Replace.next, h0, Bool.true_eq_false, false_and, if_false]; exact .inr ⟨h0, h1, h⟩
    | other c op => exact .inr ⟨h0, h1, (hm.2.names j).2 h.new, hm.2.old.trans h.old, hm.2.new.trans h.all⟩

theorem Runs.stage {P : Plan} {i j : Nat} {f : BitVec 32} {O D : List UInt8} {x y : Conf} {ms : List Move} (hr : Runs P i j x ms y)
    (h : Stage P i j f O D x) : Stage P i j f O D y := by
  induction hr with
  | nil => exact h
  | cons hm _ ih => exact ih (h.next hm)

/-- C103.  **All or nothing.**  At every moment of every run the name leads to a file, and its content is the whole old content or the whole new
content: the old until the rename, the new from then on.  The bytes of the old file never change, so who has it open goes on reading it.
Partial: other processes must leave the two files and their names alone; what the machine keeps through a shutdown or a crash is another matter
(`replace_shutdown_violated`). -/
theorem replace_atomic_partial {P : Plan} {i j : Nat} {x y : Conf} {ms : List Move} (h : Start P i j x) (hr : Runs P i j x ms y) :
    (y.done = false → To y.s P.N i ∧ bytes y.s i = bytes x.s i) ∧ (y.done = true → To y.s P.N j ∧ bytes y.s j = x.left) ∧
    bytes y.s i = bytes x.s i := by
  obtain ⟨f, h0⟩ := h.ok
  rcases hr.stage (.inl ⟨h.live, h0⟩) with ⟨a, b⟩ | ⟨a, -, b⟩
  · exact ⟨fun _ => ⟨b.new, b.old⟩, fun e => (by rw [a] at e; cases e), b.old⟩
  · exact ⟨fun e => (by rw [a] at e; cases e), fun _ => ⟨b.new, b.all⟩, b.old⟩

/-- C103.  Until the rename, what has been written is a beginning of the new content, under the other name. -/
theorem replace_prefix_partial {P : Plan} {i j : Nat} {x y : Conf} {ms : List Move} (h : Start P i j x) (hr : Runs P i j x ms y)
    (hd : y.done = false) : To y.s P.T j ∧ bytes y.s j ++ y.left = x.left := by
  obtain ⟨f, h0⟩ := h.ok
  rcases hr.stage (.inl ⟨h.live, h0⟩) with ⟨-, b⟩ | ⟨a, -⟩
  · exact ⟨b.tmp, b.sum⟩
  · rw [a] at hd; cases hd

/-- C103.  The rename itself succeeds when everything is written; the other name is then free, no process loses a descriptor, and no object changes
its content, size, kind or permissions. -/
theorem replace_swap_partial {P : Plan} {i j : Nat} {x y : Conf} {ms : List Move} (h : Start P i j x) (hr : Runs P i j x ms y)
    (hd : y.done = false) (hl : y.left = []) :
    (next P y .swap).done = true ∧ (∀ k, ¬ To (next P y .swap).s P.T k) ∧ (next P y .swap).s.cages = y.s.cages ∧
      ∀ k, SameObj y.s (next P y .swap).s k := by
  obtain ⟨f, h0⟩ := h.ok
  rcases hr.stage (.inl ⟨h.live, h0⟩) with ⟨-, b⟩ | ⟨a, -⟩
  · obtain ⟨b1, -, b2, b3, b4⟩ := b.swap hd hl
    exact ⟨b1, b2, b3, b4⟩
  · rw [a] at hd; cases hd

/-- A move of the program itself. -/
def Own : Move → Prop
  | .other _ _ => False
  | _ => True

theorem Runs.trans {P : Plan} {i j : Nat} {x y z : Conf} {ms ns : List Move} (h1 : Runs P i j x ms y) (h2 : Runs P i j y ns z) :
    Runs P i j x (ms ++ ns) z := by
  induction h1 with
  | nil => exact h2
  | cons hm _ ih => exact .cons hm (ih h2)

theorem ok_finish {P : Plan} {i j : Nat} {f : BitVec 32} {O D : List UInt8} (N : Nat) : ∀ {x : Conf}, Ok P i j f O D x → x.done = false →
    x.left.length ≤ N → ∃ ms z, (∀ m ∈ ms, Own m) ∧ Runs P i j x ms z ∧ z.done = true := by
  induction N with
  | zero =>
    intro x h hd hl
    have := List.eq_nil_of_length_eq_zero (Nat.le_zero.1 hl)
    refine ⟨[.swap], _, ?_, .cons trivial (.nil _), (h.swap hd this).1⟩
    intro m hm; rw [List.mem_singleton.1 hm]; trivial
  | succ N ih =>
    intro x h hd hl
    obtain ⟨h1, h2⟩ := h.put hd 1 (by decide)
    have hlen : (next P x (.put 1)).left.length ≤ N := by
      have e := congrArg List.length h1.sum
      have e0 := congrArg List.length h.sum
      have g : bytes (next P x (.put 1)).s j = bytes x.s j ++ x.left.take 1 := by
        have hl : (x.left.take 1).length < 2147483648 := by simp; omega
        obtain ⟨fs', e, hw⟩ := Pipeline.write_file h.reach h.fd h.file h.wf hl
        simp only [next, hd, Bool.false_eq_true, if_false]
        rw [e]
        exact (hw _ (by unfold State.setFd; split <;> rfl)).1
      rw [g] at e
      simp only [List.length_append, List.length_take] at e e0
      omega
    obtain ⟨ms, z, z1, z2, z3⟩ := ih h1 h2 hlen
    refine ⟨.put 1 :: ms, z, ?_, .cons (by show 1 < 2147483648; decide) z2, z3⟩
    intro m hm
    rcases List.mem_cons.1 hm with rfl | hm
    · trivial
    · exact z1 m hm

/-- C103.  From every point of every run the program alone can finish, whatever the others have done, and then the name has the new content. -/
theorem replace_finishes_partial {P : Plan} {i j : Nat} {x y : Conf} {ms : List Move} (h : Start P i j x) (hr : Runs P i j x ms y) :
    ∃ ms' z, (∀ m ∈ ms', Own m) ∧ Runs P i j y ms' z ∧ z.done = true ∧ To z.s P.N j ∧ bytes z.s j = x.left := by
  obtain ⟨f, h0⟩ := h.ok
  rcases hr.stage (.inl ⟨h.live, h0⟩) with ⟨a, b⟩ | ⟨a, -, b⟩
  · obtain ⟨ms', z, z1, z2, z3⟩ := ok_finish y.left.length b a (Nat.le_refl _)
    obtain ⟨-, q, -⟩ := replace_atomic_partial h (hr.trans z2)
    exact ⟨ms', z, z1, z2, z3, (q z3).1, (q z3).2⟩
  · exact ⟨[], y, (fun _ a => nomatch a), .nil y, a, b.new, b.all⟩

end Verif.Replace
