import Verif.EpollConcLemmas

/-! Who can be held up by whom: helper lemmas for `EpollConcProps.lean`. -/

namespace Verif.EpollConc

open Verif.Select

def Act.thread : Act → Nat
  | .begin t _ => t
  | .go t _ _ => t
  | .intr t => t

theorem first_pc {s s' : St} {t : Nat} {c : Call} {l : List Note} (hs : first s t c = some (s', l)) : ∃ p, s'.pc = upd s.pc t p := by
  cases c <;> simp only [first] at hs <;> (repeat' split at hs) <;> cases hs <;> exact ⟨_, rfl⟩

/-- A move changes only where its thread is. -/
theorem step_pc {s s' : St} {a : Act} {l : List Note} (hs : step s a = some (s', l)) {u : Nat} (hu : u ≠ a.thread) : s'.pc u = s.pc u := by
  have key : ∃ p, s'.pc = upd s.pc a.thread p := by
    cases a with
    | begin t c => simp only [step] at hs; split at hs <;> cases hs; exact ⟨_, rfl⟩
    | go t f b =>
      simp only [step] at hs
      split at hs
      · cases hs
      · exact first_pc hs
      · simp only [second] at hs; split at hs <;> cases hs; exact ⟨_, rfl⟩
      · simp only [remove] at hs; split at hs <;> cases hs; exact ⟨_, rfl⟩
      · unfold scanStep at hs
        (repeat' split at hs) <;> cases hs <;> exact ⟨_, rfl⟩
      · unfold pollStep at hs
        (repeat' split at hs) <;> cases hs <;> exact ⟨_, rfl⟩
      · cases hs; exact ⟨_, rfl⟩
      · cases hs; exact ⟨_, rfl⟩
    | intr t => simp only [step] at hs; split at hs <;> cases hs; exact ⟨_, rfl⟩
  obtain ⟨p, hp⟩ := key
  rw [hp, upd_ne _ _ hu]

/-- A move writes only about its own thread. -/
theorem step_note {s s' : St} {a : Act} {l : List Note} (hs : step s a = some (s', l)) :
    ∀ t c r, Note.ret t c r ∈ l → t = a.thread ∧ s'.pc t = .idle := by
  intro t c r hm
  cases a with
  | begin u c => simp only [step] at hs; split at hs <;> cases hs; cases hm
  | go u f b =>
    simp only [step] at hs
    split at hs
    · cases hs
    · rename_i c' _
      cases c' <;> simp only [first] at hs <;> (repeat' split at hs) <;> cases hs <;> simp at hm <;> simp [hm, Act.thread, upd_same]
    · simp only [second] at hs; split at hs <;> cases hs; simp at hm; simp [hm, Act.thread, upd_same]
    · simp only [remove] at hs; split at hs <;> cases hs; simp at hm; simp [hm, Act.thread, upd_same]
    · unfold scanStep at hs
      (repeat' split at hs) <;> cases hs <;> simp at hm
    · unfold pollStep at hs
      (repeat' split at hs) <;> cases hs <;> simp at hm <;> simp [hm, Act.thread, upd_same]
    · cases hs; simp at hm; simp [hm, Act.thread, upd_same]
    · cases hs; simp at hm; simp [hm, Act.thread, upd_same]
  | intr u => simp only [step] at hs; split at hs <;> cases hs; simp at hm; simp [hm, Act.thread, upd_same]

theorem step_inv {s s' : St} {a : Act} {l : List Note} (h : Inv s) (hs : step s a = some (s', l)) : Inv s' := by
  -- any specification state that agrees with `s` will do
  have r : Rel s { fd := fun fd => (s.slot fd).map Obj.abs, seen := fun t fd => match s.pc t with
      | .poll _ _ _ done _ => ((done.find? (fun x => x.fd.toNat == fd)).map (·.revents)).getD 0
      | _ => 0 } := by
    constructor
    · intro fd; rfl
    · intro t ep max todo done hit hp x hx
      simp only [hp]
      have hwf := h.wf t ep (by rw [hp]; rfl)
      rw [hp] at hwf
      obtain ⟨-, -, m, -, -, a4, -, -⟩ := hwf
      rw [List.map_append, List.nodup_append] at a4
      have nd := a4.1
      clear a4 hp
      induction done with
      | nil => cases hx
      | cons y ys ih =>
        simp only [List.find?_cons]
        simp only [List.map_cons, List.nodup_cons] at nd
        rcases List.mem_cons.1 hx with rfl | hx
        · simp
        · have : (y.fd.toNat == x.fd.toNat) = false := by
            simp only [beq_eq_false_iff_ne, ne_eq]
            intro e; exact nd.1 (e ▸ List.mem_map.2 ⟨x, hx, rfl⟩)
          rw [this]
          exact ih hx nd.2
  exact (step_ok h r hs).1

theorem runFrom_inv {s : St} (h : Inv s) (as : List Act) : Inv (runFrom s as).1 := by
  induction as generalizing s with
  | nil => exact h
  | cons a as ih =>
    simp only [runFrom]
    split
    · exact ih h
    · exact ih (step_inv h (by assumption))

theorem run_inv (as : List Act) : Inv (run as).1 := runFrom_inv .init as

/-- No other thread changes an entry that is held. -/
theorem step_slot {s s' : St} {a : Act} {l : List Note} (h : Inv s) (hs : step s a = some (s', l)) {t fd : Nat} (hh : holds (s.pc t) = some fd)
    (ht : t ≠ a.thread) : s'.slot fd = s.slot fd := by
  have hw : s.wr fd = some t := (h.own t fd).1 hh
  cases a with
  | begin u c => simp only [step] at hs; split at hs <;> cases hs; rfl
  | go u f b =>
    have ne : ∀ d o, (s.wr d = none ∨ s.wr d = some u) → upd s.slot d o fd = s.slot fd := by
      intro d o hd
      apply upd_ne
      intro e
      subst e
      rw [hw] at hd
      rcases hd with hd | hd
      · cases hd
      · cases hd; exact ht rfl
    simp only [step] at hs
    split at hs
    · cases hs
    · rename_i c' _
      cases c' <;> simp only [first] at hs <;> (repeat' split at hs) <;> cases hs <;> try rfl
      rename_i d k _ hc
      simp only [not_or, Bool.not_eq_false] at hc
      exact ne d _ (.inl (free_iff.1 hc.2.1).1)
    · rename_i ep op d ev hp
      simp only [second] at hs; split at hs <;> cases hs
      exact ne ep _ (.inr ((h.own u ep).1 (by rw [hp]; rfl)))
    · rename_i d hp
      simp only [remove] at hs; split at hs <;> cases hs
      rename_i hf
      simp only [Bool.not_eq_false] at hf
      exact ne d _ (.inl (free_iff.1 hf).1)
    · rename_i ep mx todo polls hp
      unfold scanStep at hs
      (repeat' split at hs) <;> cases hs <;> try rfl
      all_goals exact ne ep _ (.inr ((h.own u ep).1 (by rw [hp]; rfl)))
    · unfold pollStep at hs
      (repeat' split at hs) <;> cases hs <;> rfl
    · cases hs; rfl
    · cases hs; rfl
  | intr u => simp only [step] at hs; split at hs <;> cases hs; rfl

/-! ## Calls that need an entry somebody has -/

theorem first_needs {s s' : St} {t : Nat} {ep fd : Nat} {op : Int} {ev : Ev} {l : List Note} (he : ep < 1024) (hf : fd < 1024)
    (hs : first s t (.ctl ep op fd ev) = some (s', l)) : s.wr ep = none := by
  simp only [first] at hs
  split at hs
  · omega
  · split at hs
    · cases hs
    · rename_i hfr
      simp only [Bool.not_eq_false] at hfr
      exact (free_iff.1 hfr).1

/-- The calls that take the entry of `ep` for writing or reading first. -/
def Call.needs (ep : Nat) : Call → Prop
  | .ctl e _ fd _ => e = ep ∧ fd < 1024
  | .wait e _ => e = ep
  | .close fd => fd = ep
  | .other fd _ => fd = ep
  | .create _ _ => False

theorem needs_wait {s : St} {t u ep : Nat} {c : Call} (he : ep < 1024) (hw : s.wr ep = some u) (hc : c.needs ep) : first s t c = none := by
  have hf : s.free ep = false := by simp [St.free, hw]
  cases c with
  | ctl e op fd ev => obtain ⟨rfl, h2⟩ := hc; simp only [first, hf, if_true]; rw [if_neg (by omega)]
  | wait e m => cases hc; simp only [first, hf, if_true]; rw [if_neg (by omega)]
  | close fd => cases hc; simp only [first, hf, if_true]; rw [if_neg (by omega)]
  | create fd k => cases hc
  | other fd w =>
    cases hc
    simp only [first, hf, if_true, hw]
    rw [if_neg (by omega)]
    cases w <;> simp

end Verif.EpollConc
