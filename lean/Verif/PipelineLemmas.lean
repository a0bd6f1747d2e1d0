import Verif.Pipeline

/-!
# Lemmas for C99: the steps of the two programs
-/

namespace Verif.Pipeline
open Verif.Fs Verif.Kernel Verif.Path
open Verif.Pipe (Pipe pageSize)

/-! ## Slots -/

theorem slot_set {s : State} {c fd : Nat} {cg : Cage} (hc : s.cages c = some cg) (o : Option Desc) (c' fd' : Nat) :
    slot (s.setFd c fd o) c' fd' = if c' = c ∧ fd' = fd then o else slot s c' fd' := by
  rw [slot_upd (setFd_at hc)]
  by_cases h1 : c' = c
  · subst h1
    by_cases h2 : fd' = fd
    · simp [h2]
    · simp [h2, slot_eq hc]
  · simp [h1]

theorem set_pipes (s : State) (c fd : Nat) (o : Option Desc) : (s.setFd c fd o).pipes = s.pipes := by
  unfold State.setFd; split <;> rfl

theorem slot_cage {s : State} {c fd : Nat} {d : Desc} (h : slot s c fd = some d) : ∃ cg, s.cages c = some cg ∧ cg.fds fd = some d := by
  unfold slot at h
  split at h
  · cases h
  · rename_i cg hc; exact ⟨cg, hc, h⟩

theorem _root_.Verif.Kernel.OpenOn.slot {s : State} {c fd i pos : Nat} {f : BitVec 32} (h : OpenOn s c fd i pos f) :
    Kernel.slot s c fd = some (.file i pos f) := by
  obtain ⟨-, cg, h1, h2⟩ := h
  rw [slot_eq h1, h2]

theorem openOn_of_slot {s : State} {c fd i pos : Nat} {f : BitVec 32} (h : fd < 1024) (hs : slot s c fd = some (.file i pos f)) :
    OpenOn s c fd i pos f := by
  obtain ⟨cg, h1, h2⟩ := slot_cage hs
  exact ⟨h, cg, h1, h2⟩

/-! ## The calls -/

theorem read_file {s : State} (h : Reach s) {c fd i pos size n : Nat} {f : BitVec 32} (ho : OpenOn s c fd i pos f)
    (hf : IsFile s i size) (hm : f &&& 3#32 ≠ 1#32) (hp : pos ≤ size) (hn : n < 2147483648) :
    step s c (.read fd n) = (s.setFd c fd (some (.file i (pos + min n (size - pos)) f)),
      { ret := .ok (min n (size - pos) : Nat), data := ((bytes s i).drop pos).take n }) := by
  obtain ⟨hd, hl⟩ := h.inv.content hf
  have hfo := h.inv.fobj ho hf
  obtain ⟨nd, h1, h2, h3⟩ := hf
  obtain ⟨cg, hc, hg, hs⟩ := ho.get
  have hw : isWronly f = false := by unfold isWronly oRDWRFLAGS; simpa using hm
  have hread : s.fs.readAt i pos n = some (((bytes s i).drop pos).take n) := by
    simp only [Fs.readAt, hfo, if_neg (by omega : ¬ pos > size), bytes]
  have hlen : (((bytes s i).drop pos).take n).length = min n (size - pos) := by simp [hl]
  simp only [step, hc, Kernel.read, hg, hw, Bool.false_eq_true, if_false, h1, h2, hread, hlen, Int.toNat_natCast]
  rw [toI32_small (by omega) (by omega)]

theorem write_file {s : State} (h : Reach s) {c fd i size : Nat} {f : BitVec 32} {data : List UInt8}
    (ho : OpenOn s c fd i size f) (hf : IsFile s i size) (hm : f &&& 3#32 ≠ 0#32) (hl : data.length < 2147483648) :
    ∃ fs', step s c (.write fd data) = (({ s with fs := fs' } : State).setFd c fd (some (.file i (size + data.length) f)),
        { ret := .ok (data.length : Nat) }) ∧
      (∀ t : State, t.fs = fs' → bytes t i = bytes s i ++ data ∧ IsFile t i (size + data.length) ∧
        ∀ k, k ≠ i → bytes t k = bytes s k ∧ t.fs.inodes k = s.fs.inodes k) := by
  have hlen := (h.inv.content hf).2
  have hf' := hf
  obtain ⟨nd, h1, h2, h3⟩ := hf'
  obtain ⟨fs', e0, e1⟩ := writeIno_written h.inv ho hf h1 size data
  obtain ⟨cg, hc, hg, hs⟩ := ho.get
  have hw : isRdonly f = false := by unfold isRdonly oRDWRFLAGS; simpa using hm
  refine ⟨fs', ?_, ?_⟩
  · simp only [step, hc, write, hg, hw, Bool.false_eq_true, if_false, h1, h2, e0, Int.toNat_natCast, Out.r]
    rw [toI32_small (by omega) (by omega)]
  · intro t ht
    obtain ⟨w, oc⟩ := e1 t ht
    have hmax : max size (size + data.length) = size + data.length := by omega
    refine ⟨?_, ?_, oc.1⟩
    · have w2 : Written (bytes s i) size data (bytes s i ++ data) := by
        refine ⟨?_, ?_, ?_, ?_⟩
        · intro k hk
          rw [List.getElem?_append_right (by omega), hlen]
          congr 1; omega
        · intro k hk hk2
          rw [List.getElem?_append_left hk2]
        · intro k hk1 hk2; omega
        · simp only [List.length_append]; omega
      exact w.unique w2
    · have := oc.2 nd h1
      rw [hmax] at this
      exact ⟨_, this, h2, rfl⟩

theorem read_pipe {s : State} {c fd id n : Nat} {f : BitVec 32} {p : Pipe} (hfd : fd < 1024)
    (hs : slot s c fd = some (.pipe id f)) (hm : f &&& 3#32 = 0#32) (hp : s.pipes id = some p) :
    step s c (.read fd n) = ({ s with pipes := upd s.pipes id (some (p.readNow n (f &&& oNONBLOCK ≠ 0)).1) },
      { ret := (p.readNow n (f &&& oNONBLOCK ≠ 0)).2.1, data := (p.readNow n (f &&& oNONBLOCK ≠ 0)).2.2 }) := by
  obtain ⟨cg, hc, hd⟩ := slot_cage hs
  have hw : isWronly f = false := by simp only [isWronly, oRDWRFLAGS]; rw [hm]; decide
  simp only [step, hc, Kernel.read, getFd_nat hfd, hd, hw, hp, Bool.false_eq_true, if_false]

theorem write_pipe {s : State} {c fd id : Nat} {f : BitVec 32} {p : Pipe} {data : List UInt8} (hfd : fd < 1024)
    (hs : slot s c fd = some (.pipe id f)) (hm : f &&& 3#32 = 1#32) (hp : s.pipes id = some p) :
    step s c (.write fd data) = ({ s with pipes := upd s.pipes id (some (p.writeNow data (f &&& oNONBLOCK ≠ 0)).1) },
      { ret := (p.writeNow data (f &&& oNONBLOCK ≠ 0)).2 }) := by
  obtain ⟨cg, hc, hd⟩ := slot_cage hs
  have hw : isRdonly f = false := by simp only [isRdonly, oRDWRFLAGS]; rw [hm]; decide
  simp only [step, hc, write, getFd_nat hfd, hd, hw, hp, Bool.false_eq_true, if_false, Out.r]

theorem close_pipe {s : State} {c fd id : Nat} {f : BitVec 32} {p : Pipe} (hfd : fd < 1024)
    (hs : slot s c fd = some (.pipe id f)) (hp : s.pipes id = some p) :
    step s c (.close fd) = (({ s with pipes := upd s.pipes id (some (decrPipe p f)) } : State).setFd c fd none,
      { ret := .ok 0 }) := by
  obtain ⟨cg, hc, hd⟩ := slot_cage hs
  simp only [step, hc, close, getFd_nat hfd, hd, Int.toNat_natCast, State.closeSlot, State.drop, hp, Out.r]

theorem decr_buf (p : Pipe) (f : BitVec 32) : (decrPipe p f).buf = p.buf := by
  unfold decrPipe
  split
  · rfl
  · unfold Pipe.decr; split <;> rfl

/-- A write that can wait at most before it starts. -/
theorem writeNow_cases (p : Pipe) (d : List UInt8) (nb : Bool) (h : d.length ≤ 4096 ∨ nb = true) :
    (∃ v : Nat, (p.writeNow d nb).2 = .ok v ∧ (p.writeNow d nb).1 = { p with buf := p.buf ++ d.take v } ∧
      v ≤ d.length ∧ (d ≠ [] → 0 < v)) ∨
    ((∀ v, (p.writeNow d nb).2 ≠ .ok v) ∧ (p.writeNow d nb).2 ≠ .panic ∧ (p.writeNow d nb).1 = p ∧
      (p.rref = 0 ∨ p.remaining < 4096)) := by
  have hpg : pageSize = 4096 := rfl
  unfold Pipe.writeNow
  by_cases h0 : d.length = 0
  · rw [if_pos h0]
    refine .inl ⟨0, rfl, by simp, by omega, fun hn => absurd (List.eq_nil_of_length_eq_zero h0) hn⟩
  rw [if_neg h0]
  obtain ⟨k, hk⟩ : ∃ k, d.length = k + 1 := ⟨d.length - 1, by omega⟩
  rw [hk]
  rw [Pipe.writeLoop, if_pos (by omega)]
  by_cases hr : p.rref = 0
  · rw [if_pos hr]
    exact .inr ⟨(fun _ e => nomatch e), (fun e => nomatch e), rfl, .inl hr⟩
  rw [if_neg hr]
  by_cases hm : p.remaining < pageSize
  · rw [if_pos hm]
    cases nb with
    | true => rw [if_pos rfl, if_neg (by omega)]
              exact .inr ⟨(fun _ e => nomatch e), (fun e => nomatch e), rfl, .inr (by omega)⟩
    | false => rw [if_neg (by decide)]
               exact .inr ⟨(fun _ e => nomatch e), (fun e => nomatch e), rfl, .inr (by omega)⟩
  rw [if_neg hm]
  dsimp only
  rw [Nat.zero_add, List.drop_zero, Pipe.writeLoop]
  by_cases he : min d.length p.remaining < d.length
  · rw [if_pos he, if_neg hr]
    have hrem : min d.length p.remaining = p.remaining := by omega
    have hz : Pipe.remaining { p with buf := p.buf ++ d.take (min d.length p.remaining) } < pageSize := by
      unfold Pipe.remaining at hm hrem he ⊢
      simp only [List.length_append, List.length_take]
      omega
    rw [if_pos hz]
    have hnb : nb = true := by
      rcases h with h | h
      · omega
      · exact h
    rw [if_pos hnb, if_pos (by omega)]
    exact .inl ⟨_, rfl, rfl, by omega, fun _ => by omega⟩
  · rw [if_neg he]
    exact .inl ⟨_, rfl, rfl, by omega, fun _ => by omega⟩

/-- A read of at least one byte. -/
theorem readNow_cases (p : Pipe) (n : Nat) (nb : Bool) (hn : 0 < n) :
    (p.buf = [] ∧ p.wref = 0 ∧ p.readNow n nb = (p, .ok 0, [])) ∨
    (p.buf = [] ∧ p.wref ≠ 0 ∧ (p.readNow n nb).1 = p ∧ (∀ v, (p.readNow n nb).2.1 ≠ .ok v) ∧ (p.readNow n nb).2.1 ≠ .panic) ∨
    (p.buf ≠ [] ∧ p.readNow n nb = ({ p with buf := p.buf.drop (min n p.buf.length) }, .ok (min n p.buf.length : Nat),
      p.buf.take (min n p.buf.length))) := by
  unfold Pipe.readNow
  rw [if_neg (by omega)]
  by_cases hb : p.buf = []
  · have hl : p.buf.length = 0 := by rw [hb]; rfl
    rw [if_pos hl]
    by_cases hw : p.wref = 0
    · rw [if_pos hw]; exact .inl ⟨hb, hw, rfl⟩
    · rw [if_neg hw]
      refine .inr (.inl ⟨hb, hw, ?_⟩)
      cases nb <;> simp
  · have hl : ¬ p.buf.length = 0 := fun e => hb (List.eq_nil_of_length_eq_zero e)
    rw [if_neg hl]
    exact .inr (.inr ⟨hb, rfl⟩)

end Verif.Pipeline
