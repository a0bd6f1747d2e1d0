import Verif.PipelineInv

/-!
# C99: a pipeline carries a file from one process to another exactly

Theorems.  The specification is in `Pipeline.lean` (`Kept`, `Fair`, `Runs`, `Start`, `todo`).
-/

namespace Verif.Pipeline
open Verif.Fs Verif.Kernel Verif.Path
open Verif.Pipe (Pipe)

/-- C99.  Whatever the order of the calls and whatever the block sizes, the output is at every moment the beginning of the input,
and when the consumer has got end of file it is the whole input.  Partial: every call is one step here; at the grain of the pipe's own
loads and stores end of file can come early (C03, `read_eof_violated`). -/
theorem pipeline_exact_partial {P : Plan} {i j id : Nat} {fw : BitVec 32} {x y : Conf} {ms : List Move} (h : Start P i j id fw x)
    (hr : Runs P i j id fw x ms y) :
    bytes y.s i = bytes x.s i ∧ (∃ t, bytes x.s i = bytes y.s j ++ t) ∧ (y.q = .done → bytes y.s j = bytes x.s i ∧ y.p = .done) := by
  obtain ⟨f, g, fr, pp, h0⟩ := h.ok
  obtain ⟨pos, pp', h1⟩ := hr.ok h0
  refine ⟨h1.bi, ⟨_, h1.sum.symm⟩, fun hq => ?_⟩
  obtain ⟨hd, hb⟩ := h1.qdone hq
  have hs := h1.sum
  rw [hq, hd, hb, h1.pend (.inr hd)] at hs
  exact ⟨by simpa [qh, ph] using hs, hd⟩

/-- C99.  A move of one of the two programs never makes more work. -/
theorem own_moves_partial {P : Plan} {i j id : Nat} {fw : BitVec 32} {x y : Conf} {ms : List Move} (h : Start P i j id fw x)
    (hr : Runs P i j id fw x ms y) {m : Move} (hm : Fair P i j id fw y m) (ho : Own m) :
    todo P i id (next P y m) ≤ todo P i id y := by
  obtain ⟨f, g, fr, pp, h0⟩ := h.ok
  obtain ⟨pos, pp', h1⟩ := hr.ok h0
  obtain ⟨pos', pp'', h2, h3⟩ := h1.next hm
  rcases (h3 ho).1 with h4 | ⟨-, h4⟩ <;> omega

theorem ok_advance {P : Plan} {i j id : Nat} {fw f g fr : BitVec 32} {D : List UInt8} {x : Conf} {pos : Nat} {pp : Pipe}
    (h : Ok P i j id fw f g fr D x pos pp) (hq : x.q ≠ .done) (hw : x.p = .done → pp.wref = 0) :
    ∃ m, Own m ∧ Fair P i j id fw x m ∧ todo P i id (next P x m) < todo P i id x := by
  have use : ∀ m, Own m → Fair P i j id fw x m → ¬ Stuck x pp m →
      ∃ m, Own m ∧ Fair P i j id fw x m ∧ todo P i id (next P x m) < todo P i id x := by
    intro m ho hm hs
    obtain ⟨pos', pp'', h2, h3⟩ := h.next hm
    rcases (h3 ho).1 with h4 | ⟨h4, -⟩
    · exact ⟨m, ho, hm, h4⟩
    · exact absurd h4 hs
  have consumer : (pp.buf ≠ [] ∨ pp.wref = 0) → ∃ m, Own m ∧ Fair P i j id fw x m ∧ todo P i id (next P x m) < todo P i id x := by
    intro hb
    cases hx : x.q with
    | done => exact absurd hx hq
    | has d => exact use .store trivial trivial (fun a => a d hx)
    | ready =>
      refine use (.get 1) trivial ⟨by decide, by decide⟩ ?_
      rintro (a | ⟨a, b⟩)
      · exact a hx
      · rcases hb with hb | hb
        · exact hb a
        · exact b hb
  cases hx : x.p with
  | ready => exact use (.take 1) trivial ⟨by decide, by decide, .inl (by decide)⟩ (fun a => a hx)
  | ended => exact use .shut trivial trivial (fun a => a hx)
  | done => exact consumer (.inr (hw hx))
  | has d =>
    by_cases hf : pp.remaining < 4096
    · refine consumer (.inl fun hb => ?_)
      have hcap := (pipe_capacity h.reach h.hp).1
      unfold Pipe.remaining at hf
      rw [hcap, hb] at hf
      simp at hf
    · refine use .put trivial trivial ?_
      rintro (a | a)
      · exact a d hx
      · exact hf a

/-- C99.  The pipeline does not get stuck: until the consumer has got end of file, one of the two programs can do a part of the work, unless
the producer is through and another descriptor still is a write end of the pipe. -/
theorem pipeline_progress_partial {P : Plan} {i j id : Nat} {fw : BitVec 32} {x y : Conf} {ms : List Move} (h : Start P i j id fw x)
    (hr : Runs P i j id fw x ms y) (hq : y.q ≠ .done) (hw : y.p = .done → countSlots y.s.cages (isEndOf id 1#32) = 0) :
    ∃ m, Own m ∧ Fair P i j id fw y m ∧ todo P i id (next P y m) < todo P i id y := by
  obtain ⟨f, g, fr, pp, h0⟩ := h.ok
  obtain ⟨pos, pp', h1⟩ := hr.ok h0
  exact ok_advance h1 hq (fun a => by rw [(pipe_refs_partial h1.reach h1.hp).2]; exact hw a)

theorem ok_finish {P : Plan} {i j id : Nat} {fw f g fr : BitVec 32} {D : List UInt8} (N : Nat) : ∀ {x : Conf} {pos : Nat} {pp : Pipe},
    Ok P i j id fw f g fr D x pos pp → pp.wref + fin x.p = 1 → todo P i id x ≤ N →
    ∃ ms z, (∀ m ∈ ms, Own m) ∧ Runs P i j id fw x ms z ∧ z.q = .done := by
  induction N with
  | zero =>
    intro x pos pp h hw hN
    by_cases hq : x.q = .done
    · exact ⟨[], x, (fun _ a => nomatch a), .nil x, hq⟩
    · obtain ⟨m, -, -, a⟩ := ok_advance h hq (fun a => by rw [a] at hw; simpa [fin] using hw)
      omega
  | succ N ih =>
    intro x pos pp h hw hN
    by_cases hq : x.q = .done
    · exact ⟨[], x, (fun _ a => nomatch a), .nil x, hq⟩
    · obtain ⟨m, h1, h2, h3⟩ := ok_advance h hq (fun a => by rw [a] at hw; simpa [fin] using hw)
      obtain ⟨pos', pp', h4, h5⟩ := h.next h2
      obtain ⟨ms, z, z1, z2, z3⟩ := ih h4 ((h5 h1).2.trans hw) (by omega)
      refine ⟨m :: ms, z, ?_, .cons h2 z2, z3⟩
      intro m' hm'
      rcases List.mem_cons.1 hm' with rfl | hm'
      · exact h1
      · exact z1 m' hm'

/-- C99.  From every point of every run the two programs alone can finish, and then the output is the input, if only the producer has a write
end of the pipe: the point where the consumer's own copy must have been closed. -/
theorem pipeline_finishes_partial {P : Plan} {i j id : Nat} {fw : BitVec 32} {x y : Conf} {ms : List Move} (h : Start P i j id fw x)
    (hr : Runs P i j id fw x ms y) (hw : countSlots y.s.cages (isEndOf id 1#32) = if y.p = .done then 0 else 1) :
    ∃ ms' z, (∀ m ∈ ms', Own m) ∧ Runs P i j id fw y ms' z ∧ z.q = .done ∧ bytes z.s j = bytes x.s i := by
  obtain ⟨f, g, fr, pp, h0⟩ := h.ok
  obtain ⟨pos, pp', h1⟩ := hr.ok h0
  have e := (pipe_refs_partial h1.reach h1.hp).2
  have e2 : pp'.wref + fin y.p = 1 := by
    rw [e, hw]; unfold fin; split <;> rfl
  obtain ⟨ms', z, z1, z2, z3⟩ := ok_finish (todo P i id y) h1 e2 (Nat.le_refl _)
  obtain ⟨pos2, pp2, h2⟩ := z2.ok h1
  refine ⟨ms', z, z1, z2, z3, ?_⟩
  obtain ⟨hd, hb⟩ := h2.qdone z3
  have hs := h2.sum
  rw [z3, hd, hb, h2.pend (.inr hd)] at hs
  simpa [qh, ph] using hs

/-- C99.  With another write end of the pipe open (the consumer's own, say) the consumer never gets end of file, however often it asks. -/
theorem pipeline_hangs {P : Plan} {i j id : Nat} {fw : BitVec 32} {x y : Conf} {ms : List Move} (h : Start P i j id fw x)
    (hr : Runs P i j id fw x ms y) (hq : y.q ≠ .done) (hw : countSlots y.s.cages (isEndOf id 1#32) ≠ 0) (n : Nat)
    (hn : 0 < n ∧ n < 2147483648) : (next P y (.get n)).q ≠ .done := by
  obtain ⟨f, g, fr, pp, h0⟩ := h.ok
  obtain ⟨pos, pp', h1⟩ := hr.ok h0
  rw [← (pipe_refs_partial h1.reach h1.hp).2] at hw
  cases hx : y.q with
  | done => exact absurd hx hq
  | has d => simp only [next, hx]; exact fun a => nomatch a
  | ready =>
    have e := read_pipe (n := n) h1.small.2 h1.inp h1.rr h1.hp
    rcases readNow_cases pp' n (decide (fr &&& oNONBLOCK ≠ 0)) hn.1 with ⟨w1, w2, w3⟩ | ⟨w1, w2, w3, w4, w5⟩ | ⟨w1, w2⟩
    · exact absurd w2 hw
    · simp only [next, hx, e, w3]
      exact fun a => nomatch a
    · have hbl := List.length_pos_iff.2 w1
      simp only [next, hx, e, w2]
      rw [if_neg (by omega)]
      exact fun a => nomatch a

end Verif.Pipeline
