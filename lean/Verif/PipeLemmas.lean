import Verif.PipeSpec

/-!
# Helper lemmas for the pipe properties
-/

namespace Verif.Pipe

/-! ## Helper lemmas -/

/-- Local invariant of the threads inside the critical sections. -/
structure Inv (s : Sys) : Prop where
  bufCap : s.p.buf.length ≤ s.p.cap
  wLe : ∀ t, s.wr = some t → t.w ≤ t.data.length
  wNonempty : ∀ t, s.wr = some t → 0 < t.data.length
  pushRem : ∀ t r, s.wr = some t → t.phase = .push r →
      r + s.p.buf.length ≤ s.p.cap ∧ t.w < t.data.length ∧ pageSize ≤ r
  remLt : ∀ t, s.wr = some t → t.phase = .rem → t.w < t.data.length
  popLen : ∀ t sp, s.rd = some t → t.phase = .pop sp → sp ≤ s.p.buf.length ∧ 0 < sp
  rdPos : ∀ t, s.rd = some t → 0 < t.n

theorem inv_init (cap : Nat) : Inv (Sys.init cap) := by
  constructor <;> simp [Sys.init, Pipe.new]

@[simp] theorem incr_buf (p : Pipe) (e : End) : (p.incr e).buf = p.buf := by cases e <;> rfl
@[simp] theorem incr_cap (p : Pipe) (e : End) : (p.incr e).cap = p.cap := by cases e <;> rfl
@[simp] theorem decr_buf (p : Pipe) (e : End) : (p.decr e).buf = p.buf := by cases e <;> rfl
@[simp] theorem decr_cap (p : Pipe) (e : End) : (p.decr e).cap = p.cap := by cases e <;> rfl

theorem inv_stepWriter (s : Sys) (t : Writer) (ht : s.wr = some t) (h : Inv s) :
    Inv (stepWriter s t).1 := by
  obtain ⟨h1, h2, h2', h3, h3', h4, h5⟩ := h
  simp only [stepWriter]
  (repeat' split) <;> constructor <;>
    grind [Pipe.remaining, List.length_append, List.length_take, List.length_drop]

theorem inv_stepReader (s : Sys) (t : Reader) (ht : s.rd = some t) (h : Inv s) :
    Inv (stepReader s t).1 := by
  obtain ⟨h1, h2, h2', h3, h3', h4, h5⟩ := h
  simp only [stepReader]
  (repeat' split) <;> constructor <;> grind [List.length_drop]

theorem inv_step (s : Sys) (a : Act) (h : Inv s) : Inv (step s a).1 := by
  cases a with
  | writeStep =>
    simp only [step]; split
    · exact h
    · exact inv_stepWriter s _ ‹_› h
  | readStep =>
    simp only [step]; split
    · exact h
    · exact inv_stepReader s _ ‹_› h
  | beginWrite =>
    obtain ⟨h1, h2, h2', h3, h3', h4, h5⟩ := h
    simp only [step]; (repeat' split) <;> constructor <;> grind
  | beginRead =>
    obtain ⟨h1, h2, h2', h3, h3', h4, h5⟩ := h
    simp only [step]; (repeat' split) <;> constructor <;> grind
  | incr e => obtain ⟨h1, h2, h2', h3, h3', h4, h5⟩ := h; constructor <;> simpa [step]
  | decr e => obtain ⟨h1, h2, h2', h3, h3', h4, h5⟩ := h; constructor <;> simpa [step]

theorem inv_run (as : List Act) : ∀ s, Inv s → Inv (run s as).1 := by
  induction as with
  | nil => intro s h; simpa [run]
  | cons a as ih => intro s h; simpa [run] using ih _ (inv_step s a h)

theorem take_drop_take {α : Type} (l : List α) {a b : Nat} (h : a ≤ b) :
    l.take a ++ (l.take b).drop a = l.take b := by
  have : l.take a = (l.take b).take a := by rw [List.take_take]; simp [Nat.min_eq_left h]
  rw [this, List.take_append_drop]

/-- One step keeps `delivered ++ buffered = accepted ++ in progress`. -/
theorem fifo_step (s : Sys) (a : Act) (hi : Inv s) :
    ∀ D A : List UInt8, D ++ s.p.buf = A ++ s.inProgress →
      (D ++ ((step s a).2.toList.map Ev.delivered).flatten) ++ (step s a).1.p.buf =
      (A ++ ((step s a).2.toList.map Ev.accepted).flatten) ++ (step s a).1.inProgress := by
  intro D A h
  cases a with
  | beginWrite tid data nb =>
    simp only [step]
    split
    · simpa [Ev.delivered, Ev.accepted] using h
    · split
      · simpa using h
      · rename_i hw
        simp [Sys.inProgress, hw] at h ⊢
        exact h
  | beginRead tid n nb =>
    simp only [step]
    split
    · simpa [Ev.delivered, Ev.accepted] using h
    · split <;> simpa [Sys.inProgress] using h
  | writeStep =>
    simp only [step]
    split
    · simpa using h
    · rename_i t ht
      have hin : s.inProgress = t.data.take t.w := by simp [Sys.inProgress, ht]
      rw [hin] at h
      simp only [stepWriter]
      split
      · split
        · split
          · simpa [Ev.delivered, Ev.accepted, Sys.inProgress] using h
          · simpa [Ev.delivered, Ev.accepted, Sys.inProgress] using h
        · simpa [Ev.delivered, Ev.accepted, Sys.inProgress] using h
      · split
        · split
          · split
            · simpa [Ev.delivered, Ev.accepted, Sys.inProgress] using h
            · simpa [Ev.delivered, Ev.accepted, Sys.inProgress] using h
          · simpa [Ev.delivered, Ev.accepted, Sys.inProgress] using h
        · simpa [Ev.delivered, Ev.accepted, Sys.inProgress] using h
      · rename_i r hp
        have h3 := hi.pushRem t r ht hp
        simp only [Sys.inProgress, Option.toList, List.map_nil, List.flatten_nil, List.append_nil]
        rw [← List.append_assoc, h, List.append_assoc, take_drop_take]
        omega
  | readStep =>
    simp only [step]
    split
    · simpa using h
    · rename_i t ht
      simp only [stepReader]
      split
      · split
        · split <;> simpa [Sys.inProgress] using h
        · simpa [Sys.inProgress] using h
      · split <;> simpa [Ev.delivered, Ev.accepted, Sys.inProgress] using h
      · split
        · simpa [Ev.delivered, Ev.accepted, Sys.inProgress] using h
        · split
          · simpa [Ev.delivered, Ev.accepted, Sys.inProgress] using h
          · simpa [Ev.delivered, Ev.accepted, Sys.inProgress] using h
      · split <;> simpa [Ev.delivered, Ev.accepted, Sys.inProgress] using h
      · simpa [Ev.delivered, Ev.accepted, Sys.inProgress, List.take_append_drop] using h
  | incr e => cases e <;> simpa [Sys.inProgress, step, Pipe.incr] using h
  | decr e => cases e <;> simpa [Sys.inProgress, step, Pipe.decr] using h

theorem fifo_run (as : List Act) : ∀ (s : Sys) (D A : List UInt8), Inv s →
    D ++ s.p.buf = A ++ s.inProgress →
    (D ++ ((run s as).2.map Ev.delivered).flatten) ++ (run s as).1.p.buf =
    (A ++ ((run s as).2.map Ev.accepted).flatten) ++ (run s as).1.inProgress := by
  induction as with
  | nil => intro s D A _ h; simpa [run] using h
  | cons a as ih =>
    intro s D A hi h
    have := ih _ _ _ (inv_step s a hi) (fifo_step s a hi D A h)
    simpa [run, List.append_assoc] using this

theorem consistent_step (s : Sys) (a : Act) (hi : Inv s) :
    ∀ ev, (step s a).2 = some ev → ev.Consistent := by
  obtain ⟨h1, h2, h2', h3, h3', h4, h5⟩ := hi
  intro ev
  cases a <;> simp only [step, stepWriter, stepReader] <;> (repeat' split) <;>
    grind [Ev.Consistent, List.length_take]

theorem consistent_run (as : List Act) : ∀ s, Inv s → ∀ ev ∈ (run s as).2, ev.Consistent := by
  induction as with
  | nil => intro s _ ev h; simp [run] at h
  | cons a as ih =>
    intro s hi ev h
    simp only [run, List.mem_append, Option.mem_toList] at h
    rcases h with h | h
    · exact consistent_step s a hi ev h
    · exact ih _ (inv_step s a hi) ev h

/-! ### Sequential model -/

/-- After a push, either everything is written or no room is left. -/
theorem writeLoop_spec (data : List UInt8) (nb : Bool) :
    ∀ (fuel : Nat) (p : Pipe) (w : Nat), w ≤ data.length → data.length < fuel + w →
      ∃ k, w ≤ k ∧ k ≤ data.length ∧
        (writeLoop data nb fuel p w).1 = { p with buf := p.buf ++ (data.take k).drop w } ∧
        ((writeLoop data nb fuel p w).2 = .ok k ∨
         (writeLoop data nb fuel p w).2 = .err .EPIPE ∧ p.rref = 0 ∧ k = w ∨
         (writeLoop data nb fuel p w).2 = .err .EAGAIN ∧ k = 0 ∧ nb = true ∧ p.rref ≠ 0 ∨
         (writeLoop data nb fuel p w).2 = .blocked ∧ nb = false ∧ p.rref ≠ 0) ∧
        (p.rref = 0 → w < data.length → (writeLoop data nb fuel p w).2 = .err .EPIPE) ∧
        (p.rref ≠ 0 → pageSize ≤ p.remaining → w < data.length → w < k ∧
           (nb = true → (writeLoop data nb fuel p w).2 = .ok k)) ∧
        (p.rref ≠ 0 → p.remaining < pageSize → w = 0 → 0 < data.length → nb = true →
           (writeLoop data nb fuel p w).2 = .err .EAGAIN) ∧
        (k < data.length → (p.rref ≠ 0) →
          (writeLoop data nb fuel p w).1.remaining < pageSize) := by
  intro fuel
  induction fuel with
  | zero => intro p w h1 h2; omega
  | succ fuel ih =>
    intro p w h1 h2
    unfold writeLoop
    split
    · split
      · exact ⟨w, by omega, by omega, by simp, by simp_all, by simp_all, by simp_all,
          by simp_all, by simp_all⟩
      · split
        · rename_i hr hp
          split
          · split
            · exact ⟨w, by omega, by omega, by simp, by simp_all, by simp_all,
                by intros; omega, by intros; omega, by simp_all⟩
            · exact ⟨w, by omega, by omega, by simp, by simp_all, by simp_all,
                by intros; omega, by simp_all, by simp_all⟩
          · exact ⟨w, by omega, by omega, by simp, by simp_all, by simp_all,
                by intros; omega, by simp_all, by simp_all⟩
        · rename_i hlt hr hp
          have hpos : 0 < p.remaining := by simp only [pageSize] at hp; omega
          obtain ⟨k, hk1, hk2, hk3, hk4, hk5, hk6, hk7, hk8⟩ :=
            ih { p with buf := p.buf ++ (data.take (min data.length (w + p.remaining))).drop w }
              (min data.length (w + p.remaining)) (by omega) (by omega)
          refine ⟨k, by omega, hk2, ?_, ?_, by simp_all, ?_, by intros; omega, ?_⟩
          · rw [hk3]
            have : (data.take (min data.length (w + p.remaining))).drop w ++
                (data.take k).drop (min data.length (w + p.remaining)) = (data.take k).drop w := by
              have h1 : data.take (min data.length (w + p.remaining)) =
                  (data.take k).take (min data.length (w + p.remaining)) := by
                rw [List.take_take, Nat.min_eq_left hk1]
              have h2 : (data.take k).drop (min data.length (w + p.remaining)) =
                ((data.take k).drop w).drop (min data.length (w + p.remaining) - w) := by
                rw [List.drop_drop]; congr 1; omega
              rw [h1, h2, List.drop_take, List.take_append_drop]
            simp [← this]
          · rcases hk4 with h | h | h | h
            · exact .inl h
            · exact absurd h.2.1 hr
            · omega
            · exact .inr (.inr (.inr ⟨h.1, h.2.1, hr⟩))
          · intro _ _ _
            refine ⟨by omega, ?_⟩
            intro hnb
            rcases hk4 with h | h | h | h
            · exact h
            · exact absurd h.2.1 hr
            · omega
            · simp [hnb] at h
          · intro h _; exact hk8 h hr
    · have : w = data.length := by omega
      subst this
      exact ⟨data.length, by omega, by omega, by simp, by simp, by simp, by simp,
        by intros; omega, by simp⟩

theorem writeNow_ok (p : Pipe) (data : List UInt8) (nb : Bool) (v : Nat)
    (h : (p.writeNow data nb).2 = .ok v) :
    v ≤ data.length ∧ (p.writeNow data nb).1 = { p with buf := p.buf ++ data.take v } := by
  unfold Pipe.writeNow at *
  split
  · rename_i h0
    rw [if_pos h0] at h
    have hv : v = 0 := by simp at h; omega
    subst hv; simp
  · rename_i h0
    rw [if_neg h0] at h
    obtain ⟨k, _, hk2, hk3, hk4, -⟩ := writeLoop_spec data nb (data.length + 1) p 0 (by omega) (by omega)
    rw [h] at hk4
    have : v = k := by simp at hk4; omega
    subst this
    exact ⟨hk2, by simpa using hk3⟩

theorem writeNow_epipe (p : Pipe) (data : List UInt8) (nb : Bool) (hd : data ≠ []) :
    (p.writeNow data nb).2 = .err .EPIPE ↔ p.rref = 0 := by
  have h0 : data.length ≠ 0 := by simpa using hd
  unfold Pipe.writeNow
  rw [if_neg h0]
  obtain ⟨k, _, hk2, hk3, hk4, hk5, -⟩ := writeLoop_spec data nb (data.length + 1) p 0 (by omega) (by omega)
  constructor
  · intro h; rw [h] at hk4; simp at hk4; exact hk4.1
  · intro h; exact hk5 h (by omega)

theorem selectWrite_sound (p : Pipe) (data : List UInt8) (hd : data ≠ [])
    (h : p.selectWrite = true) :
    (p.writeNow data true).2 = .err .EPIPE ∨ ∃ v : Nat, 0 < v ∧ (p.writeNow data true).2 = .ok v := by
  have h0 : data.length ≠ 0 := by simpa using hd
  by_cases hr : p.rref = 0
  · exact .inl ((writeNow_epipe p data true hd).2 hr)
  · right
    unfold Pipe.writeNow
    rw [if_neg h0]
    obtain ⟨k, _, hk2, hk3, hk4, hk5, hk6, -⟩ :=
      writeLoop_spec data true (data.length + 1) p 0 (by omega) (by omega)
    simp [Pipe.selectWrite, hr] at h
    have := hk6 hr (by omega) (by omega)
    exact ⟨k, this.1, this.2 rfl⟩

theorem selectWrite_complete (p : Pipe) (data : List UInt8) (hd : data ≠ [])
    (h : p.selectWrite = false) (hne : p.remaining ≠ pageSize) :
    (p.writeNow data true).2 = .err .EAGAIN := by
  have h0 : data.length ≠ 0 := by simpa using hd
  unfold Pipe.writeNow
  rw [if_neg h0]
  obtain ⟨k, _, hk2, hk3, hk4, hk5, hk6, hk7, -⟩ :=
    writeLoop_spec data true (data.length + 1) p 0 (by omega) (by omega)
  simp [Pipe.selectWrite] at h
  exact hk7 h.2 (by omega) rfl (by omega) rfl

/-- A successful write call that stops early leaves less than a page. -/
theorem writeNow_partial (p : Pipe) (data : List UInt8) (nb : Bool) (v : Nat)
    (h : (p.writeNow data nb).2 = .ok v) (hv : v < data.length) :
    (p.writeNow data nb).1.remaining < pageSize ∧ (p.writeNow data nb).1.rref ≠ 0 := by
  have h0 : data.length ≠ 0 := by omega
  have hr : p.rref ≠ 0 := by
    intro hr
    have := (writeNow_epipe p data nb (by simpa using h0)).2 hr
    rw [h] at this; simp at this
  refine ⟨?_, by rw [(writeNow_ok p data nb v h).2]; exact hr⟩
  unfold Pipe.writeNow at *
  rw [if_neg h0] at h ⊢
  obtain ⟨k, _, hk2, hk3, hk4, hk5, hk6, hk7, hk8⟩ :=
    writeLoop_spec data nb (data.length + 1) p 0 (by omega) (by omega)
  rw [h] at hk4
  have : v = k := by simp at hk4; omega
  exact hk8 (by omega) hr

/-- A blocking write that returns wrote everything; a short write wrote something. -/
theorem writeLoop_ok (data : List UInt8) (nb : Bool) :
    ∀ (fuel : Nat) (p : Pipe) (w k : Nat), w ≤ data.length →
      (writeLoop data nb fuel p w).2 = .ok k →
      (nb = false → k = data.length) ∧ (0 < data.length → 0 < k) := by
  intro fuel
  induction fuel with
  | zero => intro p w k _ h; simp [writeLoop] at h
  | succ fuel ih =>
    intro p w k hw h
    unfold writeLoop at h
    split at h
    · split at h
      · simp at h
      · split at h
        · split at h
          · split at h
            · simp at h; constructor
              · intro hb; simp_all
              · omega
            · simp at h
          · simp at h
        · exact ih _ _ k (by omega) h
    · simp at h; omega

theorem writeNow_again (p : Pipe) (data : List UInt8) (nb : Bool)
    (h : (p.writeNow data nb).2 = .err .EAGAIN) : (p.writeNow data nb).1 = p := by
  unfold Pipe.writeNow at *
  split
  · rfl
  · rename_i h0
    rw [if_neg h0] at h
    obtain ⟨k, _, hk2, hk3, hk4, -⟩ :=
      writeLoop_spec data nb (data.length + 1) p 0 (by omega) (by omega)
    rw [h] at hk4
    simp at hk4
    rw [hk3, hk4.1]; simp

/-- Once less than a page is left, a non-blocking `writev` adds nothing more. -/
theorem writevLoop_stuck (iovs : List (List UInt8)) :
    ∀ (p : Pipe) (tot : Nat), 0 < tot → p.remaining < pageSize → p.rref ≠ 0 →
      writevLoop true iovs p tot = (p, .ok tot) := by
  induction iovs with
  | nil => intro p tot _ _ _; rfl
  | cons iov rest ih =>
    intro p tot ht hp hr
    unfold writevLoop
    by_cases h0 : iov.length = 0
    · have : p.writeNow iov true = (p, .ok 0) := by simp [Pipe.writeNow, h0]
      rw [this]
      simpa using ih p tot ht hp hr
    · have he : (p.writeNow iov true).2 = .err .EAGAIN := by
        unfold Pipe.writeNow
        rw [if_neg h0]
        obtain ⟨k, _, hk2, hk3, hk4, hk5, hk6, hk7, -⟩ :=
          writeLoop_spec iov true (iov.length + 1) p 0 (by omega) (by omega)
        exact hk7 hr hp rfl (by omega) rfl
      have hq := writeNow_again p iov true he
      have : p.writeNow iov true = (p, .err .EAGAIN) := Prod.ext hq he
      rw [this]
      simp; omega

theorem writevLoop_ok (nb : Bool) (iovs : List (List UInt8)) :
    ∀ (p : Pipe) (tot v : Nat), (writevLoop nb iovs p tot).2 = .ok v →
      tot ≤ v ∧ v - tot ≤ iovs.flatten.length ∧
      (writevLoop nb iovs p tot).1 = { p with buf := p.buf ++ iovs.flatten.take (v - tot) } := by
  induction iovs with
  | nil =>
    intro p tot v h
    simp [writevLoop] at h
    have : v = tot := by omega
    subst this; simp [writevLoop]
  | cons iov rest ih =>
    intro p tot v h
    unfold writevLoop at h ⊢
    split at h
    · rename_i p' w hw
      have hw1 : (p.writeNow iov nb).1 = p' := by rw [hw]
      have hw2 : (p.writeNow iov nb).2 = .ok w := by rw [hw]
      obtain ⟨wn, hwn⟩ : ∃ wn : Nat, w = wn := by
        unfold Pipe.writeNow at hw2
        split at hw2
        · simp at hw2; exact ⟨0, by omega⟩
        · obtain ⟨k, _, hk2, hk3, hk4, -⟩ :=
            writeLoop_spec iov nb (iov.length + 1) p 0 (by omega) (by omega)
          rw [hw2] at hk4; simp at hk4; exact ⟨k, hk4⟩
      subst hwn
      have hok := writeNow_ok p iov nb wn hw2
      rw [hw1] at hok
      simp only [Int.toNat_natCast] at h
      by_cases hfull : wn = iov.length
      · have := ih p' (tot + wn) v h
        simp only [Int.toNat_natCast]
        refine ⟨by omega, by rw [List.flatten_cons, List.length_append]; omega, ?_⟩
        rw [this.2.2, hok.2, hfull]
        simp only [List.take_length, List.append_assoc, List.flatten_cons]
        have e : v - tot = iov.length + (v - (tot + iov.length)) := by omega
        rw [e, List.take_length_add_append]
      · have hlt : wn < iov.length := by omega
        have hp := writeNow_partial p iov nb wn hw2 hlt
        rw [hw1] at hp
        have h2 : (nb = false → wn = iov.length) ∧ (0 < iov.length → 0 < wn) := by
          unfold Pipe.writeNow at hw2
          rw [if_neg (by omega)] at hw2
          exact writeLoop_ok iov nb _ p 0 wn (by omega) hw2
        have hnb : nb = true := by
          cases nb with
          | true => rfl
          | false => exact absurd (h2.1 rfl) hfull
        subst hnb
        have hst := writevLoop_stuck rest p' (tot + wn) (by omega) hp.1 hp.2
        rw [hst] at h
        have hv : v = tot + wn := by simp at h; omega
        simp only [Int.toNat_natCast, hst]
        refine ⟨by omega, by rw [List.flatten_cons, List.length_append]; omega, ?_⟩
        rw [hok.2, hv]
        have : tot + wn - tot = wn := by omega
        rw [this, List.flatten_cons, List.take_append_of_le_length hok.1]
    · simp at h
    · rename_i p' hw
      have hw2 : (p.writeNow iov nb).2 = .err .EAGAIN := by rw [hw]
      have hw1 : p' = p := by rw [← writeNow_again p iov nb hw2, hw]
      subst hw1
      split at h
      · simp at h
      · have hv : v = tot := by simp at h; omega
        subst hv
        rename_i ht
        simp [ht]
    · rename_i p' r hne1 hne2 hne3 hw
      simp at h
      subst h
      exact absurd rfl (hne1 _)

theorem writevNow_ok (p : Pipe) (iovs : List (List UInt8)) (nb : Bool) (v : Nat)
    (h : (p.writevNow iovs nb).2 = .ok v) :
    v ≤ iovs.flatten.length ∧
    (p.writevNow iovs nb).1 = { p with buf := p.buf ++ iovs.flatten.take v } := by
  have := (writevLoop_ok nb iovs p 0 v h).2
  simpa only [Nat.sub_zero, Pipe.writevNow] using this

end Verif.Pipe
