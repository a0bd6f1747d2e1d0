import Verif.PipeHist
import Verif.FdProps

/-!
# C02: how much a pipe of the system holds
-/

set_option linter.unusedSimpArgs false

namespace Verif.Kernel
open Verif.Path Verif.Fs
open Verif.Pipe (Pipe End)

/-! ## Lemmas -/

theorem writeLoop_cap (data : List UInt8) (nb : Bool) : ∀ fuel (p : Pipe) w, p.buf.length ≤ p.cap →
    (Pipe.writeLoop data nb fuel p w).1.buf.length ≤ p.cap ∧ (Pipe.writeLoop data nb fuel p w).1.cap = p.cap := by
  intro fuel
  induction fuel with
  | zero => intro p w h; exact ⟨h, rfl⟩
  | succ k ih =>
    intro p w h
    simp only [Pipe.writeLoop]
    repeat' split
    all_goals first
      | exact ⟨h, rfl⟩
      | (refine ih _ _ ?_
         simp only [List.length_append, List.length_drop, List.length_take, Pipe.Pipe.remaining]
         omega)

theorem writeNow_cap {p : Pipe} (h : p.buf.length ≤ p.cap) (data : List UInt8) (nb : Bool) :
    (p.writeNow data nb).1.buf.length ≤ p.cap ∧ (p.writeNow data nb).1.cap = p.cap := by
  simp only [Pipe.Pipe.writeNow]
  split
  · exact ⟨h, rfl⟩
  · exact writeLoop_cap _ _ _ _ _ h

theorem writevLoop_cap (nb : Bool) : ∀ (iovs : List (List UInt8)) (p : Pipe) tot, p.buf.length ≤ p.cap →
    (Pipe.writevLoop nb iovs p tot).1.buf.length ≤ p.cap ∧ (Pipe.writevLoop nb iovs p tot).1.cap = p.cap := by
  intro iovs
  induction iovs with
  | nil => intro p tot h; exact ⟨h, rfl⟩
  | cons iov rest ih =>
    intro p tot h
    have h1 := writeNow_cap h iov nb
    simp only [Pipe.writevLoop]
    generalize p.writeNow iov nb = x at h1 ⊢
    obtain ⟨p', r⟩ := x
    simp only at h1
    have h2 : ∀ tot, _ := fun tot => ih p' tot (by rw [h1.2]; exact h1.1)
    rw [h1.2] at h2
    cases r with
    | ok v => exact h2 _
    | err e =>
      cases e <;> simp only <;> (try split) <;> exact h1
    | _ => exact h1

theorem readNow_cap {p : Pipe} (h : p.buf.length ≤ p.cap) (n : Nat) (nb : Bool) :
    (p.readNow n nb).1.buf.length ≤ p.cap ∧ (p.readNow n nb).1.cap = p.cap := by
  simp only [Pipe.Pipe.readNow]
  repeat' split
  all_goals first
    | exact ⟨h, rfl⟩
    | (refine ⟨?_, rfl⟩; simp only [List.length_drop]; omega)

/-- Every pipe has this capacity and is within it. -/
def Capped (s : State) : Prop := ∀ id p, s.pipes id = some p → p.cap = Pipe.pipeCapacity ∧ p.buf.length ≤ p.cap

theorem step_capped {s : State} (hf : Fresh s) (h : Capped s) (c : Nat) (op : Op) : Capped (step s c op).1 := by
  by_cases hm : op.moves = false
  · have hb := step_bufs hf c op hm
    intro id p hp
    cases hq : s.pipes id with
    | none => obtain ⟨a, b⟩ := hb.grow id p hp hq; exact ⟨b, by rw [a]; simp⟩
    | some q =>
      obtain ⟨p', e1, e2, e3⟩ := hb.keep id q hq
      rw [hp] at e1; cases e1
      rw [e2, e3]; exact h id q hq
  · have set : ∀ {j : Nat} {q q' : Pipe}, s.pipes j = some q → (q.buf.length ≤ q.cap → q'.buf.length ≤ q.cap ∧ q'.cap = q.cap) →
          Capped { s with pipes := upd s.pipes j (some q') } := by
        intro j q q' hj hq i p hp
        simp only [upd_apply] at hp
        split at hp
        · cases hp
          have h1 := h j q hj
          have h2 := hq h1.2
          exact ⟨h2.2.trans h1.1, by rw [h2.2]; exact h2.1⟩
        · exact h i p hp
    have same : ∀ {s' : State}, s'.pipes = s.pipes → Capped s' := by
        intro s' e1 i p hp; rw [e1] at hp; exact h i p hp
    cases hc : s.cages c with
    | none => simp only [step, hc]; exact h
    | some cg =>
      cases op <;> first
        | exact absurd rfl hm
        | (simp only [step, hc, read, write, writev]
           repeat' split
           all_goals first
              | exact h
              | exact same rfl
              | exact same (setFd_pipes' ..)
              | exact set ‹_› (fun g => readNow_cap g _ _)
              | exact set ‹_› (fun g => writeNow_cap g _ _)
              | exact set ‹_› (fun g => writevLoop_cap _ _ _ _ g))

/-! ## Properties -/

/-- C02.  In every state reached from boot by any calls of any cages, every pipe has room for 65536 bytes and holds no more. -/
theorem pipe_capacity {s : State} (h : Reach s) {id : Nat} {p : Pipe} (hp : s.pipes id = some p) : p.cap = 65536 ∧ p.buf.length ≤ 65536 := by
  have key : Fresh s ∧ Capped s := by
    obtain ⟨b, h⟩ := h
    clear hp
    induction h with
    | init => exact ⟨fun _ _ => rfl, fun _ _ h => by cases h⟩
    | step c op hl _ _ ih => exact ⟨step_fresh ih.1 _ _, step_capped ih.1 ih.2 _ _⟩
    | restart => exact ⟨fun _ _ => rfl, fun _ _ h => by cases h⟩
    | crash => exact ⟨fun _ _ => rfl, fun _ _ h => by cases h⟩
  have := key.2 id p hp
  exact ⟨this.1, Nat.le_trans this.2 (Nat.le_of_eq this.1)⟩

/-- C02.  A non-blocking write to a pipe with a reader is cut to the room there is, and refused with EAGAIN if that is less than a page;
a blocking one of so much data that it does not fit waits. -/
theorem full_pipe {s : State} (h : Reach s) {c : Nat} {cg : Cage} (hc : s.cages c = some cg) {fd : Nat} (hfd : fd < 1024) {id : Nat} {f : BitVec 32}
    (hd : cg.fds fd = some (.pipe id f)) (hf : f &&& 3#32 = 1#32) {p : Pipe} (hp : s.pipes id = some p) (hr : p.rref ≠ 0)
    {data : List UInt8} (hdat : data ≠ []) :
    (f &&& 0x800#32 ≠ 0#32 → (step s c (.write fd data)).2.ret =
      if 65536 < p.buf.length + 4096 then .err .EAGAIN else .ok (min data.length (65536 - p.buf.length) : Nat)) ∧
    (f &&& 0x800#32 = 0#32 → (step s c (.write fd data)).2.ret =
      if 65536 < p.buf.length + 4096 ∨ 65536 < p.buf.length + data.length then .blocked else .ok data.length) := by
  obtain ⟨hcap, hlen⟩ := pipe_capacity h hp
  have hrd : ¬ isRdonly f = true := by
    unfold isRdonly oRDWRFLAGS; rw [beq_iff_eq]
    intro g; rw [show f &&& 3#32 = 0#32 from g] at hf; exact absurd hf (by decide)
  have hret : (step s c (.write fd data)).2.ret = (p.writeNow data (f &&& 0x800#32 ≠ 0#32)).2 := by
    simp only [step, hc, write, getFd_nat hfd, hd, if_neg hrd, hp, Out.r]; rfl
  have h0 : ¬ data.length = 0 := by simpa using hdat
  have hpos : 0 < data.length := by omega
  have hw : ∀ nb, p.writeNow data nb = Pipe.writeLoop data nb (data.length + 1) p 0 := fun nb => by
    simp only [Pipe.Pipe.writeNow, if_neg h0]
  have hl : ∃ k, data.length = k + 1 := ⟨data.length - 1, by omega⟩
  obtain ⟨k, hk⟩ := hl
  have one : ∀ nb, 65536 < p.buf.length + 4096 → Pipe.writeLoop data nb (data.length + 1) p 0 =
      if nb then (p, .err .EAGAIN) else (p, .blocked) := by
    intro nb g
    simp only [Pipe.writeLoop, if_pos hpos, if_neg hr, Pipe.Pipe.remaining, hcap, Pipe.pageSize]
    rw [if_pos (by omega)]; simp
  have two : ∀ nb, ¬ 65536 < p.buf.length + 4096 → (Pipe.writeLoop data nb (data.length + 1) p 0).2 =
      if p.buf.length + data.length ≤ 65536 then .ok data.length else if nb then .ok (65536 - p.buf.length : Nat) else .blocked := by
    intro nb g
    rw [Pipe.writeLoop]
    simp only [if_pos hpos, if_neg hr, Pipe.Pipe.remaining, hcap, Pipe.pageSize]
    rw [if_neg (by omega), hk, Pipe.writeLoop]
    simp only [Pipe.Pipe.remaining, hcap, Pipe.pageSize, hk, Nat.zero_add, if_neg hr, List.drop_zero, List.length_append, List.length_take]
    by_cases hfit : p.buf.length + (k + 1) ≤ 65536
    · have e1 : min (k + 1) (65536 - p.buf.length) = k + 1 := by omega
      simp only [e1, Nat.lt_irrefl, if_false, if_pos hfit]
    · have e1 : min (k + 1) (65536 - p.buf.length) = 65536 - p.buf.length := by omega
      have e2 : 65536 - p.buf.length < k + 1 := by omega
      have e3 : 65536 - (p.buf.length + min (65536 - p.buf.length) (k + 1)) < 4096 := by omega
      have e4 : 65536 - p.buf.length > 0 := by omega
      simp only [e1, if_pos e2, if_pos e3, if_neg hfit, if_pos e4]
      cases nb <;> simp
  refine ⟨fun hn => ?_, fun hn => ?_⟩
  · rw [hret, hw, decide_eq_true hn]
    by_cases g : 65536 < p.buf.length + 4096
    · rw [one _ g]; simp only [if_pos g, if_true]
    · rw [two _ g]; simp only [if_neg g, if_true]
      split
      · rw [Nat.min_eq_left (by omega)]
      · rw [Nat.min_eq_right (by omega)]
  · rw [hret, hw, decide_eq_false (by simpa using hn)]
    by_cases g : 65536 < p.buf.length + 4096
    · rw [one _ g]; simp only [g, true_or, if_true, Bool.false_eq_true, if_false]
    · rw [two _ g]
      by_cases hfit : p.buf.length + data.length ≤ 65536
      · have : ¬ 65536 < p.buf.length + data.length := by omega
        simp only [if_pos hfit, g, this, or_self, if_false]
      · have : 65536 < p.buf.length + data.length := by omega
        simp only [if_neg hfit, this, or_true, if_true, Bool.false_eq_true, if_false]

/-- The pipe of `demo` holds one byte: of 70000 bytes 65535 go in. -/
example : (step (run demo [(0, .fcntl 5 4 0x801#32)]) 0 (.write (5 : Nat) (List.replicate 70000 7))).2.ret = .ok 65535 := by
  have hr : Reach (run demo [(0, .fcntl 5 4 0x801#32)]) := demo_reach.run _ (by decide +kernel)
  have hs : slot (run demo [(0, .fcntl 5 4 0x801#32)]) 0 5 = some (.pipe 0 0x801#32) := by decide +kernel
  have hp : (run demo [(0, .fcntl 5 4 0x801#32)]).pipes 0 = some { buf := [7], cap := 65536, rref := 1, wref := 1 } := by decide +kernel
  cases hc : (run demo [(0, .fcntl 5 4 0x801#32)]).cages 0 with
  | none => simp [slot, hc] at hs
  | some cg =>
    have := (full_pipe hr hc (fd := 5) (by decide) (by simpa [slot, hc] using hs) (by decide) hp (by decide)
      (data := List.replicate 70000 7) (fun h => by
        have := congrArg List.length h
        rw [List.length_replicate] at this
        cases this)).1 (by decide)
    rw [this, List.length_replicate]
    rfl

end Verif.Kernel
