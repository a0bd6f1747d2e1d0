import Verif.ExitConcFacts

/-!
# C95: a process that exits gives back everything it had, and harms nobody
-/

namespace Verif.ExitConc
variable {c : Cfg} {s : St} {q : Bool}

/-- **C95, partial.**  When `exit` has returned, whatever the other threads of the process and the other processes did meanwhile,
provided the threads of the process did not close or make descriptors themselves: no descriptor of the process is left, and each
end of each pipe is counted exactly for the descriptors of the other processes.  Missing: threads that make or close descriptors
(`leak_violated`, `double_violated`, `wrap_violated`). -/
theorem gives_back_partial (h : Reach c true s) (hg : s.gone = true) :
    (∀ fd e, ¬ Has c s fd e) ∧ ∀ e, s.cnt e = s.ext e := by
  have hall := h.quiet.all hg
  refine ⟨fun fd e ⟨h1, h2⟩ => ?_, fun e => ?_⟩
  · rw [hall fd h1] at h2; cases h2
  · rw [h.inv.cnt e, live_none hall]; rfl

/-- **C95, partial.**  If they made descriptors, but closed none, the counts say exactly too much what these descriptors hold. -/
theorem leak_exact_partial (h : Reach c q s) (hg : s.gone = true) (e : End) : s.cnt e = s.ext e + held c s e := by
  rw [h.inv.cnt e]
  have hrel : ∀ k, s.rel k = false := by
    intro k
    cases hr : s.rel k with
    | false => rfl
    | true =>
      obtain ⟨-, u, hu | hu⟩ := h.inv.rel k hr
      · exact absurd (.inr hu) (h.gone_close hg u k)
      · exact absurd (.inr ⟨_, _, hu⟩) (h.inv.gone u hg)
  congr 1
  unfold live held
  apply List.countP_congr
  intro k _
  rw [hrel k]; simp

/-- **C95, partial.**  At every moment, also in the middle of `exit`: the counts are never below what the other processes hold. -/
theorem others_counted_partial (h : Reach c q s) (e : End) : s.ext e ≤ s.cnt e := by
  have := h.inv.cnt e; omega

/-- **C95, partial.**  So nobody is told end of file while another process can still write, or while this one can through a
descriptor that it has not begun to close. -/
theorem no_early_eof_partial (h : Reach c q s) {p n : Nat} (hn : 0 < n) (he : readAnswer s p n = .ok 0) :
    s.ext ⟨p, true⟩ = 0 ∧ ∀ fd, Has c s fd ⟨p, true⟩ → ∃ t, InClose s t fd ∨ InExit s t := by
  have h0 : s.cnt ⟨p, true⟩ = 0 := by
    unfold readAnswer readNow at he
    rw [if_neg (by omega)] at he
    split at he
    · rename_i hh
      split at hh
      · split at hh
        · assumption
        · cases hh
      · cases hh
        have := Ret.ok.inj he
        omega
    · cases he
  have hc := h.inv.cnt ⟨p, true⟩
  refine ⟨by omega, fun fd hfd => ?_⟩
  cases hr : s.rel fd with
  | false =>
    have : 0 < live c.N s.slot s.rel ⟨p, true⟩ := live_pos.2 ⟨fd, hfd.1, hfd.2, hr⟩
    omega
  | true =>
    obtain ⟨-, u, hu | hu⟩ := h.inv.rel fd hr
    · exact ⟨u, .inl (.inr hu)⟩
    · exact ⟨u, .inr (.inr ⟨_, _, hu⟩)⟩

/-- **C95, partial.**  And when the process is gone and no other process can write, a reader is told so once the pipe is empty, and
never waits; a writer without readers is told that the pipe is broken. -/
theorem eof_after_partial (h : Reach c true s) (hg : s.gone = true) {p n : Nat} (hn : 0 < n) :
    (s.ext ⟨p, true⟩ = 0 → readAnswer s p n = .ok (min n (s.data p) : Nat)) ∧
    (s.ext ⟨p, false⟩ = 0 → writeNow c s p n = some none) := by
  have hb := (gives_back_partial h hg).2
  refine ⟨fun he => ?_, fun he => ?_⟩
  · have h0 : s.cnt ⟨p, true⟩ = 0 := by rw [hb, he]
    unfold readAnswer readNow
    rw [if_neg (by omega)]
    by_cases hd : s.data p = 0
    · rw [if_pos hd, if_pos h0, hd, Nat.min_zero]; rfl
    · rw [if_neg hd]
  · have h0 : s.cnt ⟨p, false⟩ = 0 := by rw [hb, he]
    unfold writeNow
    rw [if_neg (by omega), if_pos h0]

/-! ## Does it end? -/

/-- `exit` waits exactly while another thread of the process is in a `read` or `write` of the descriptor that is next to be closed. -/
theorem exit_waits_iff (h : Reach c q s) {t : Tid} {k : Nat} {half : Bool} (ht : s.pc t = .exiting k half) :
    step c s t = none ↔ k < c.N ∧ ∃ u p n, u ≠ t ∧ (s.pc u = .reading k p n ∨ ∃ m, s.pc u = .writing k p m n) := by
  have hi := h.inv
  have hother : ∀ u p n, (s.pc u = .reading k p n ∨ ∃ m, s.pc u = .writing k p m n) → u ≠ t := by
    rintro u p n hu rfl
    rw [ht] at hu
    rcases hu with hu | ⟨m, hu⟩ <;> cases hu
  unfold step
  rw [ht]
  dsimp only
  constructor
  · intro hh
    split at hh
    · rename_i hk
      split at hh
      · (repeat' split at hh) <;> cases hh
      · rename_i hl
        obtain ⟨u, hu⟩ := Option.ne_none_iff_exists'.1 hl
        obtain ⟨p, n, h1⟩ := (hi.lock k u).1 hu
        exact ⟨hk, u, p, n, hother u p n h1, h1⟩
    · cases hh
  · rintro ⟨hk, u, p, n, -, hu⟩
    have : s.lock k = some u := (hi.lock k u).2 ⟨p, n, hu⟩
    rw [if_pos hk, if_neg (by rw [this]; exact fun h => nomatch h)]

/-- The steps that `exit` has before it. -/
def left (c : Cfg) : Pc → Nat
  | .begun .exit => 2 * c.N + 2
  | .exiting k half => 2 * (c.N - k) + 1 - if half then 1 else 0
  | _ => 0

/-- Each step of `exit` brings it nearer to its end, and nothing that others do takes it back; so it ends after at most `2 N + 2`
steps of its own, unless it waits for ever.  Its steps change nothing but descriptors and counts: no bytes, no descriptors of
others, no lock, no other thread. -/
theorem exit_nears (h : Reach c q s) {t : Tid} (ht : InExit s t) :
    (∀ s', step c s t = some s' → left c (s'.pc t) < left c (s.pc t) ∧ (left c (s'.pc t) = 0 ↔ s'.gone = true) ∧
      s'.ext = s.ext ∧ s'.data = s.data ∧ s'.lock = s.lock ∧ ∀ u, u ≠ t → s'.pc u = s.pc u) ∧
    (∀ a, a ≠ .run t → (act c s a).pc t = s.pc t) := by
  have hi := h.inv
  have hng : s.gone = false := by
    cases hh : s.gone with
    | false => rfl
    | true => exact absurd ht (hi.gone t hh)
  refine ⟨fun s' hs => ?_, fun a ha => ?_⟩
  · rcases ht with ho | ⟨k, half, ho⟩
    · unfold step at hs
      rw [ho] at hs
      simp only [Op.slot?, first] at hs
      cases hs
      simp only [upd_same, left, ho, hng]
      exact ⟨by simp, by simp, trivial, trivial, trivial, fun u hu => upd_ne _ _ hu⟩
    · have hex := hi.exh t k
      unfold step at hs
      rw [ho] at hs hex
      dsimp only at hs
      split at hs
      · split at hs
        · split at hs
          · rename_i hk _ hh; subst hh
            cases hs
            simp only [empty, upd_same, left, ho, hng]
            refine ⟨?_, ?_, trivial, trivial, trivial, fun u hu => upd_ne _ _ hu⟩ <;> simp <;> omega
          · rename_i hk _ hh
            have hh : half = false := by simpa using hh
            subst hh
            split at hs
            · cases hs
              simp only [upd_same, left, ho, hng]
              refine ⟨?_, ?_, trivial, trivial, trivial, fun u hu => upd_ne _ _ hu⟩ <;> simp <;> omega
            · cases hs
              simp only [release, upd_same, left, ho, hng]
              refine ⟨?_, ?_, trivial, trivial, trivial, fun u hu => upd_ne _ _ hu⟩ <;> simp <;> omega
        · cases hs
      · rename_i hk
        cases hs
        cases half with
        | true => exact absurd (hex rfl).2 hk
        | false =>
          simp only [upd_same, left, ho]
          refine ⟨?_, ?_, trivial, trivial, trivial, fun u hu => upd_ne _ _ hu⟩ <;> simp
  · cases a with
    | enter u op =>
      simp only [act]
      split
      · rename_i hh
        dsimp only
        rw [upd_ne]
        rintro rfl
        rcases ht with ho | ⟨k, half, ho⟩ <;> rw [ho] at hh <;> cases hh.1
      · rfl
    | run u =>
      have hne : t ≠ u := by rintro rfl; exact ha rfl
      simp only [act]
      cases hs : step c s u with
      | none => rfl
      | some s' => exact (step_facts hs).1 t hne
    | oread p n => simp only [act]; (repeat' split) <;> rfl
    | owrite p n => simp only [act]; (repeat' split) <;> rfl
    | oclose e => simp only [act]; (repeat' split) <;> rfl
    | odup e => simp only [act]; (repeat' split) <;> rfl

theorem exec_ended {t : Tid} (h : s.pc t = .ended) : ∀ n, exec c s (List.replicate n (.run t)) = s
  | 0 => rfl
  | n + 1 => by
    have : act c s (.run t) = s := by simp only [act, step, h, Option.getD_none]
    rw [List.replicate_succ, exec, this]
    exact exec_ended h n

/-- `exit` on its own, somewhere in its loop. -/
theorem exit_loop {t : Tid} : ∀ (n : Nat) (s : St) (k : Nat) (half : Bool), Inv c s → s.pc t = .exiting k half → (∀ fd, s.lock fd = none) →
    (∀ j, j < k → s.slot j = none) → 2 * (c.N - k) + 1 ≤ n + (if half then 1 else 0) →
    ∃ s', exec c s (List.replicate n (.run t)) = s' ∧ Inv c s' ∧ s'.gone = true ∧ (∀ j, j < c.N → s'.slot j = none) ∧ s'.ext = s.ext ∧ s'.data = s.data ∧
      s'.log = s.log ++ [(t, .exit, .ok 0)]
  | 0, s, k, half, hi, ho, hl, hs, hn => by
    cases half with
    | false => simp at hn
    | true => have := (hi.exh t k ho).2; simp at hn; omega
  | n + 1, s, k, half, hi, ho, hl, hs, hn => by
    rw [List.replicate_succ, exec]
    by_cases hk : k < c.N
    · have hstep : ∃ s1 k1 half1, step c s t = some s1 ∧ s1.pc t = .exiting k1 half1 ∧ s1.lock = s.lock ∧ (∀ j, j < k1 → s1.slot j = none) ∧
          s1.ext = s.ext ∧ s1.data = s.data ∧ s1.log = s.log ∧ 2 * (c.N - k1) + 1 ≤ n + (if half1 then 1 else 0) := by
        unfold step
        rw [ho]
        dsimp only
        rw [if_pos hk, if_pos (hl k)]
        cases half with
        | true =>
          refine ⟨_, k + 1, false, rfl, upd_same _ _ _, rfl, fun j hj => ?_, rfl, rfl, rfl, ?_⟩
          · simp only [empty]
            rw [upd_apply]; split
            · rfl
            · exact hs j (by omega)
          · simp at hn ⊢; omega
        | false =>
          rw [if_neg (by simp)]
          cases hsk : s.slot k with
          | none =>
            refine ⟨_, k + 1, false, rfl, upd_same _ _ _, rfl, fun j hj => ?_, rfl, rfl, rfl, ?_⟩
            · dsimp only
              by_cases e : j = k
              · subst e; exact hsk
              · exact hs j (by omega)
            · simp at hn ⊢; omega
          | some e =>
            refine ⟨_, k, true, rfl, upd_same _ _ _, rfl, fun j hj => hs j hj, rfl, rfl, rfl, ?_⟩
            simp at hn ⊢; omega
      obtain ⟨s1, k1, half1, h1, h2, h3, h4, h5, h6, h7, h8⟩ := hstep
      have e1 : act c s (.run t) = s1 := by simp only [act, h1, Option.getD_some]
      rw [e1]
      obtain ⟨s', g1, g2, g3, g4, g5, g6, g7⟩ := exit_loop n s1 k1 half1 (hi.step h1) h2 (fun fd => by rw [h3]; exact hl fd) h4 h8
      exact ⟨s', g1, g2, g3, g4, g5.trans h5, g6.trans h6, by rw [g7, h7]⟩
    · have hstep : step c s t = some { s with gone := true, pc := upd s.pc t .ended, log := s.log ++ [(t, .exit, .ok 0)] } := by
        unfold step; rw [ho]; dsimp only; rw [if_neg hk]
      have e1 : act c s (.run t) = { s with gone := true, pc := upd s.pc t .ended, log := s.log ++ [(t, .exit, .ok 0)] } := by
        simp only [act, hstep, Option.getD_some]
      rw [e1, exec_ended (upd_same _ _ _)]
      exact ⟨_, rfl, hi.step hstep, rfl, fun j hj => hs j (by omega), rfl, rfl, rfl⟩

/-- When the other threads of the process are in no call, `exit` is as it should be: it returns after at most `2 N + 2` steps, the
process has no descriptors left, all ends of pipes are counted exactly for the other processes, and these have their descriptors
and bytes as before. -/
theorem exit_alone (h : Reach c q s) {t : Tid} (hidle : ∀ u, s.pc u = .idle) (hng : s.gone = false) :
    ∃ s', exec c s (.enter t .exit :: List.replicate (2 * c.N + 2) (.run t)) = s' ∧ s'.gone = true ∧ (∀ fd e, ¬ Has c s' fd e) ∧
      (∀ e, s'.cnt e = s.ext e) ∧ s'.ext = s.ext ∧ s'.data = s.data ∧ s'.log = s.log ++ [(t, .exit, .ok 0)] := by
  have hi := h.inv
  have hc : Careful q s (.enter t .exit) := by
    refine ⟨fun u fd hu => ?_, fun u hu => ?_, fun _ u hu => ?_⟩
    · unfold InClose at hu; rw [hidle u] at hu; rcases hu with hu | hu <;> cases hu
    · unfold InExit at hu; rw [hidle u] at hu; rcases hu with hu | ⟨_, _, hu⟩ <;> cases hu
    · unfold InNew at hu; rw [hidle u] at hu; rcases hu with ⟨_, hu⟩ | hu <;> cases hu
  have hl : ∀ fd, s.lock fd = none := by
    intro fd
    cases hh : s.lock fd with
    | none => rfl
    | some u =>
      obtain ⟨p, n, hu⟩ := (hi.lock fd u).1 hh
      rw [hidle u] at hu
      rcases hu with hu | ⟨m, hu⟩ <;> cases hu
  have hi1 := hi.act hc
  have e1 : act c s (.enter t .exit) = { s with pc := upd s.pc t (.begun .exit) } := by
    simp only [act]; rw [if_pos ⟨hidle t, hng⟩]
  rw [e1] at hi1
  have hs2 : step c { s with pc := upd s.pc t (.begun .exit) } t = some { s with pc := upd (upd s.pc t (.begun .exit)) t (.exiting 0 false) } := by
    unfold step; dsimp only; rw [upd_same]; rfl
  rw [exec, e1, List.replicate_succ, exec]
  have e2 : act c { s with pc := upd s.pc t (.begun .exit) } (.run t) = { s with pc := upd (upd s.pc t (.begun .exit)) t (.exiting 0 false) } := by
    simp only [act, hs2, Option.getD_some]
  rw [e2]
  obtain ⟨s', g1, g2, g3, g4, g5, g6, g7⟩ := exit_loop (t := t) (2 * c.N + 1) _ 0 false (hi1.step hs2) (upd_same _ _ _) hl (fun j hj => by omega) (by simp)
  refine ⟨s', g1, g3, fun fd e ⟨h1, h2⟩ => ?_, fun e => ?_, g5, g6, g7⟩
  · rw [g4 fd h1] at h2; cases h2
  · rw [g2.cnt e, live_none g4, g5]; rfl

/-- **C95.**  No byte is lost or made up in a `read` while `exit` runs: what a waiting reader is answered is what leaves the pipe. -/
theorem read_takes {t : Tid} {s' : St} {fd p n : Nat} (h : s.pc t = .reading fd p n) (h' : step c s t = some s') :
    ∃ k, k ≤ n ∧ k ≤ s.data p ∧ s'.log = s.log ++ [(t, .read fd n, .ok (k : Nat))] ∧ s'.data = upd s.data p (s.data p - k) := by
  unfold step at h'
  rw [h] at h'
  dsimp only at h'
  unfold readNow at h'
  by_cases h0 : n = 0
  · rw [if_pos h0] at h'; cases h'; exact ⟨0, Nat.zero_le _, Nat.zero_le _, rfl, rfl⟩
  · rw [if_neg h0] at h'
    by_cases h1 : s.data p = 0
    · rw [if_pos h1] at h'
      by_cases h2 : s.cnt ⟨p, true⟩ = 0
      · rw [if_pos h2] at h'; cases h'; exact ⟨0, Nat.zero_le _, Nat.zero_le _, rfl, rfl⟩
      · rw [if_neg h2] at h'; cases h'
    · rw [if_neg h1] at h'
      cases h'
      exact ⟨min n (s.data p), Nat.min_le_left .., Nat.min_le_right .., rfl, rfl⟩

/-- **C95.**  And the same for `write`: each step of a writer puts some of the missing bytes into the pipe; it answers its full length
exactly with the step that puts the last of them, or that nobody can read. -/
theorem write_puts {t : Tid} {s' : St} {fd p todo n : Nat} (h : s.pc t = .writing fd p todo n) (h' : step c s t = some s') :
    ∃ m, m ≤ todo ∧ s'.data = upd s.data p (s.data p + m) ∧
      ((m = todo ∧ s'.log = s.log ++ [(t, .write fd n, .ok (n : Nat))]) ∨
       (m < todo ∧ s'.log = s.log ∧ s'.pc t = .writing fd p (todo - m) n) ∨
       (m = 0 ∧ s.cnt ⟨p, false⟩ = 0 ∧ s'.log = s.log ++ [(t, .write fd n, .err .EPIPE)])) := by
  unfold step at h'
  rw [h] at h'
  dsimp only at h'
  split at h'
  · cases h'
  · rename_i hw
    cases h'
    refine ⟨0, Nat.zero_le _, (upd_self ..).symm, .inr (.inr ⟨rfl, ?_, rfl⟩)⟩
    unfold writeNow at hw
    split at hw
    · cases hw
    · split at hw
      · assumption
      · split at hw <;> cases hw
  · rename_i m hw
    have hm : m ≤ todo := by
      unfold writeNow at hw
      split at hw
      · cases hw; omega
      · split at hw
        · cases hw
        · split at hw
          · cases hw
          · cases hw; exact Nat.min_le_left ..
    split at h'
    · cases h'; exact ⟨m, hm, rfl, .inl ⟨by assumption, rfl⟩⟩
    · rename_i hne
      cases h'
      exact ⟨m, hm, rfl, .inr (.inl ⟨by omega, rfl, upd_same ..⟩)⟩

end Verif.ExitConc
