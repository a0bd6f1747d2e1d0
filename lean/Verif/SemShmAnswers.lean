import Verif.SemShmProps

/-!
# C94: what the calls answer, and whom they leave alone
-/

namespace Verif.SemShm
open Verif.Shm (State Seg Att Sys)

/-- `sem_init` of any existing process, careful or not, refuses a value above `SEM_VALUE_MAX`, and then a handle in use, and
changes nothing when it does. -/
theorem init_refuses {chk : Bool} {s : St} {c h v : Nat} {ps : Bool} (hrc : s.sh.rev c ≠ none) :
    (2147483647 < v → step chk s c (.init h ps v) = (s, .r (.err .EINVAL))) ∧
    (v ≤ 2147483647 → (step chk s c (.getvalue h)).2 ≠ .r (.err .EINVAL) → step chk s c (.init h ps v) = (s, .r (.err .EBADF))) := by
  obtain ⟨rv, hrv⟩ := Option.ne_none_iff_exists'.1 hrc
  have hm : Sem.semValueMax = 2147483647 := rfl
  refine ⟨fun hv => ?_, fun hv hu => ?_⟩
  · have : semInit chk s c rv h ps v = (s, .err .EINVAL) := by unfold semInit; rw [if_pos (show v > Sem.semValueMax by omega)]
    simp only [step, hrv, this]
  · cases ht : s.tab c h with
    | none => exact absurd (by simp only [step, hrv, ht]) hu
    | some o =>
      have : semInit chk s c rv h ps v = (s, .err .EBADF) := by
        unfold semInit; rw [if_neg (show ¬ v > Sem.semValueMax by omega), ht]
      simp only [step, hrv, this]

/-- Every call but `sem_init` on a handle without a semaphore answers `EINVAL` and changes nothing. -/
theorem unknown_refused {chk : Bool} {s : St} {c h : Nat} (hrc : s.sh.rev c ≠ none) (hn : (step chk s c (.getvalue h)).2 = .r (.err .EINVAL)) :
    step chk s c (.destroy h) = (s, .r (.err .EINVAL)) ∧ ∀ u : Use, step chk s c (u.on h) = (s, .r (.err .EINVAL)) := by
  obtain ⟨rv, hrv⟩ := Option.ne_none_iff_exists'.1 hrc
  cases ht : s.tab c h with
  | some o => simp only [step, hrv, ht] at hn; cases hn
  | none =>
    refine ⟨?_, fun u => ?_⟩
    · have : semDestroy chk s c rv h = (s, .err .EINVAL) := by unfold semDestroy; rw [ht]
      simp only [step, hrv, this]
    · cases u <;> simp only [Use.on, step, hrv, takeCall, ht]

/-- **C94, partial.**  A semaphore outside of shared memory, of either kind, is there with its value for the caller alone: no other
handle of any process changes. -/
theorem init_private_partial {chk : Bool} {s : St} (hr : Reach chk s) {c h v : Nat} {ps : Bool} (hrc : s.sh.rev c ≠ none)
    (hout : ∀ id d, ¬ At s c h id d) (hfree : (step chk s c (.getvalue h)).2 = .r (.err .EINVAL)) (hv : v ≤ Sem.semValueMax) :
    (step chk s c (.init h ps v)).2 = .r (.ok 0) ∧
    (step chk (step chk s c (.init h ps v)).1 c (.getvalue h)).2 = .r (.ok v) ∧
    ∀ p k, (p ≠ c ∨ k ≠ h) →
      (step chk (step chk s c (.init h ps v)).1 p (.getvalue k)).2 = (step chk s p (.getvalue k)).2 := by
  obtain ⟨rv, hrv⟩ := Option.ne_none_iff_exists'.1 hrc
  have hi := hr.inv
  have hnone : s.tab c h = none := by
    simp only [step, hrv] at hfree
    cases ht : s.tab c h with
    | none => rfl
    | some o => rw [ht] at hfree; cases hfree
  have hc : Careful s c (.init h ps v) := fun id d hat => absurd hat (hout id d)
  have hcall : step chk s c (.init h ps v) = (made s c h ps v, .r (.ok 0)) := by
    simp only [step, hrv]
    rcases init_cases (chk := chk) hi hrv hc with ⟨-, e⟩ | ⟨-, -, e⟩ | ⟨-, -, -, e⟩ | ⟨id', g, -, -, rfl, hat', hg, hsame, e⟩
    · omega
    · exact absurd hnone e
    · rw [e]
    · exact absurd (hi.start hat') (hout _ _)
  rw [hcall]
  refine ⟨rfl, ?_, fun p k hne => ?_⟩
  · have hrv' : (made s c h ps v).sh.rev c = some rv := hrv
    have ht : (made s c h ps v).tab c h = some s.next := by
      show upd s.tab c _ c h = _; rw [upd_same, upd_same]
    have hval : (made s c h ps v).vals s.next = v := upd_same _ _ _
    simp only [step, hrv', ht, hval]
  · have ht : (made s c h ps v).tab p k = s.tab p k := by
      show upd s.tab c _ p k = _
      rw [upd_apply]
      split
      · rename_i e; subst e
        rw [upd_ne]
        rcases hne with hne | hne
        · exact absurd rfl hne
        · exact hne
      · rfl
    have hsh : (made s c h ps v).sh = s.sh := rfl
    simp only [step, hsh, ht]
    cases s.sh.rev p with
    | none => rfl
    | some l =>
      dsimp only
      cases htp : s.tab p k with
      | none => rfl
      | some o =>
        dsimp only
        have hlt := hi.lt p k o htp
        have : (made s c h ps v).vals o = s.vals o := upd_ne _ _ (by omega)
        rw [this]

/-- **C94, partial.**  A careful call changes no handle of another process outside of shared memory, unless it makes that
process. -/
theorem private_kept_partial {chk : Bool} {s : St} (hr : Reach chk s) {c : Nat} {op : Op} (hc : Careful s c op) {p k : Nat}
    (hp : p ≠ c) (hrp : s.sh.rev p ≠ none) (hout : ∀ id d, ¬ At s p k id d) : (step chk s c op).1.tab p k = s.tab p k := by
  have hi := hr.inv
  cases hrv : s.sh.rev c with
  | none => simp only [step, hrv]
  | some rv =>
    simp only [step, hrv]
    cases op with
    | shm op pick =>
      dsimp only
      rcases shmCall_cases (chk := chk) (s := s) (c := c) (rv := rv) (op := op) (pick := pick) with e | ⟨tab, ht, hn, e⟩
      · rw [e]
      rw [e]
      dsimp only
      cases op with
      | «at» id addr host =>
        simp only [tabAfter] at ht
        split at ht
        · cases ht; rfl
        · unfold attachSems at ht
          split at ht
          · cases ht; rfl
          · split at ht
            · cases ht; rfl
            · rename_i q
              split at ht
              · cases ht
              · split at ht
                · cases ht
                · rename_i a0 _ _
                  have hcopy : ∀ (os : List Nat) (t t' : Nat → Nat → Option Nat), copySems chk c q a0 addr os t = some t' → t' p k = t p k := by
                    intro os
                    induction os with
                    | nil => intro t t' e; cases e; rfl
                    | cons o os ih =>
                      intro t t' e
                      simp only [copySems] at e
                      split at e
                      · split at e
                        · cases e
                        · rw [ih _ _ e, upd_ne _ _ hp]
                      · cases e
                  exact hcopy _ _ _ ht
      | dt addr =>
        simp only [tabAfter] at ht
        split at ht
        · cases ht; rfl
        · simp only [Option.map_eq_some_iff] at ht
          obtain ⟨t, -, rfl⟩ := ht
          rw [upd_ne _ _ hp]
      | fork ch =>
        cases ht
        have hch : s.sh.rev ch = none := hc
        rw [upd_ne]
        rintro rfl; exact hrp hch
      | exec ch =>
        cases ht
        have hch : ch = c ∨ s.sh.rev ch = none := hc
        rw [upd_ne, upd_ne _ _ hp]
        rintro rfl
        rcases hch with rfl | hch
        · exact hp rfl
        · exact hrp hch
      | exit => cases ht; rw [upd_ne _ _ hp]
      | _ => cases ht; rfl
    | init h ps v =>
      dsimp only
      rcases init_cases (chk := chk) hi hrv hc with ⟨e, -⟩ | ⟨e, -⟩ | ⟨-, -, -, e⟩ | ⟨id', g, -, -, rfl, hat', hg, hsame, e⟩
      · rw [e]
      · rw [e]
      · rw [e]; show upd s.tab c _ p k = _; rw [upd_ne _ _ hp]
      · rw [e]
        show putAll (upd s.tab c _) g _ _ p k = _
        unfold putAll
        rw [if_neg, upd_ne _ _ hp]
        rintro ⟨h1, h2⟩
        obtain ⟨b, hb⟩ := (hi.attc hg p).1 h1
        exact hout _ _ (hi.start ((hsame p b hb k).2 ⟨rv, hrv, mem_addrsOf.1 h2⟩))
    | destroy h =>
      dsimp only
      rcases destroy_cases (chk := chk) hi hrv hc with ⟨e, -⟩ | ⟨-, -, e⟩ | ⟨id', g, -, hat', hg, hsame, e⟩
      · rw [e]
      · rw [e]; show upd s.tab c _ p k = _; rw [upd_ne _ _ hp]
      · rw [e]
        show putAll (upd s.tab c _) g _ _ p k = _
        unfold putAll
        rw [if_neg, upd_ne _ _ hp]
        rintro ⟨h1, h2⟩
        obtain ⟨b, hb⟩ := (hi.attc hg p).1 h1
        exact hout _ _ (hi.start ((hsame p b hb k).2 ⟨rv, hrv, mem_addrsOf.1 h2⟩))
    | wait h => simp only [takeCall]; repeat' split
                all_goals rfl
    | trywait h => simp only [takeCall]; repeat' split
                   all_goals rfl
    | timedwait h e => simp only [takeCall]; repeat' split
                       all_goals rfl
    | post h => dsimp only; repeat' split
                all_goals rfl
    | getvalue h => dsimp only; repeat' split
                    all_goals rfl

/-- The waits on a semaphore whose value is 0: `sem_trywait` answers `EAGAIN`, `sem_timedwait` `ETIMEDOUT` once its time is over,
`sem_wait` waits; a post at `SEM_VALUE_MAX` answers `EOVERFLOW`.  Nothing changes. -/
theorem edge_answers {chk : Bool} {s : St} {c h v : Nat} (hv : (step chk s c (.getvalue h)).2 = .r (.ok v)) :
    (v = 0 → step chk s c (.wait h) = (s, .r .blocked) ∧ step chk s c (.trywait h) = (s, .r (.err .EAGAIN)) ∧
      step chk s c (.timedwait h true) = (s, .r (.err .ETIMEDOUT)) ∧ step chk s c (.timedwait h false) = (s, .r .blocked)) ∧
    (v = 2147483647 → step chk s c (.post h) = (s, .r (.err .EOVERFLOW))) := by
  cases hrv : s.sh.rev c with
  | none => simp only [step, hrv] at hv; cases hv
  | some rv =>
    simp only [step, hrv] at hv
    cases ht : s.tab c h with
    | none => rw [ht] at hv; cases hv
    | some o =>
      rw [ht] at hv
      dsimp only at hv
      have hv : s.vals o = v := by
        have := (Ret.ok.inj (Shm.Out.r.inj hv)); exact Int.ofNat.inj this
      refine ⟨fun h0 => ?_, fun hm => ?_⟩
      · have hg : Sem.take (s.vals o) = none := by rw [Sem.take, hv, if_pos h0]
        simp only [step, hrv, takeCall, ht, hg, if_true, Bool.false_eq_true, if_false, and_self]
      · have hg : Sem.give (s.vals o) = none := by
          have : Sem.semValueMax = 2147483647 := rfl
          rw [Sem.give, hv, if_neg (by omega)]
        simp only [step, hrv, ht, hg]

/-- After `exec` the new process has no semaphores. -/
theorem exec_none {chk : Bool} {s : St} {c ch : Nat} {pick : Option Nat} {s' : St} (hrc : s.sh.rev c ≠ none)
    (h : step chk s c (.shm (.exec ch) pick) = (s', .r (.ok 0))) (u : Use) (k : Nat) :
    step chk s' ch (u.on k) = (s', .r (.err .EINVAL)) := by
  obtain ⟨rv, hrv⟩ := Option.ne_none_iff_exists'.1 hrc
  simp only [step, hrv] at h
  rcases shmCall_cases (chk := chk) (s := s) (c := c) (rv := rv) (op := .exec ch) (pick := pick) with e | ⟨tab, ht, hn, e⟩
  · rw [e] at h; cases h
  · rw [e] at h
    cases ht
    have h1 : s' = { s with sh := (Shm.step s.sh c (.exec ch)).1, tab := upd (upd s.tab c fun _ => none) ch fun _ => none } :=
      (congrArg Prod.fst h).symm
    have hr1 : s'.sh.rev ch ≠ none := by
      rw [h1]
      dsimp only
      simp only [Shm.step, hrv] at hn ⊢
      split at hn
      · exact absurd rfl hn
      · split at hn
        · exact absurd rfl hn
        · rename_i hy
          rw [if_neg hy]
          dsimp only
          rw [upd_same]; exact fun h => nomatch h
    have ht : s'.tab ch k = none := by rw [h1]; dsimp only; rw [upd_same]
    obtain ⟨l, hl⟩ := Option.ne_none_iff_exists'.1 hr1
    cases u <;> simp only [Use.on, step, hl, takeCall, ht]

/-- **C94, partial.**  After a detach, what was the first byte of the segment is no semaphore any more for the caller, if a
semaphore was initialised there as careful callers do. -/
theorem detach_forgets_partial {chk : Bool} {s : St} (hr : Reach chk s) {c addr id : Nat} (hat : Attached s c addr id) :
    (step chk (step chk s c (.shm (.dt addr) none)).1 c (.getvalue addr)).2 = .r (.err .EINVAL) := by
  have hi := hr.inv
  obtain ⟨rv, hrv, hm⟩ := hat
  obtain ⟨A, hA⟩ := hi.shm
  cases hf : Shm.findAddr addr rv with
  | none => exact absurd rfl (Shm.findAddr_none hf _ hm)
  | some q =>
    obtain ⟨i, id'⟩ := q
    obtain ⟨hm', g, g', h1, h2, -, h3⟩ := hA.detach hrv hf
    dsimp only at h1 h3
    obtain ⟨xs, ys, e1, e2⟩ := Shm.findAddr_spec hf
    have hatt : Attached s c addr id' := ⟨rv, hrv, by rw [e1]; simp⟩
    have hfit := hi.fit c addr id' g hatt h1
    have hdrop := dropSems_spec (chk := chk) (t := s.tab c) (hi.offs0 id') (show addr < w32 by omega)
    have hstep : Shm.step s.sh c (.dt addr) =
        (({ s.sh with rev := upd s.sh.rev c (some (Shm.swapRemove rv i)) } : State).putSeg id' g', .r (.ok id')) := by
      simp only [Shm.step, hrv, Shm.shmdt, hf, h1, h2]
    have hcall : step chk s c (.shm (.dt addr) none) = ({ s with
        sh := ({ s.sh with rev := upd s.sh.rev c (some (Shm.swapRemove rv i)) } : State).putSeg id' g'
        tab := upd s.tab c (if s.offs id' = [] then s.tab c else upd (s.tab c) addr none) }, .r (.ok id')) := by
      simp only [step, hrv, shmCall, tabAfter, hf, hdrop, hstep, Option.map_some]
    rw [hcall]
    have hnone : (if s.offs id' = [] then s.tab c else upd (s.tab c) addr none) addr = none := by
      split
      · rename_i ho
        cases ht : s.tab c addr with
        | none => rfl
        | some o => have := (hi.inreg c addr id' 0 o (hi.start hatt) ht).2.1; rw [ho] at this; cases this
      · rw [upd_same]
    have hrev : (({ s.sh with rev := upd s.sh.rev c (some (Shm.swapRemove rv i)) } : State).putSeg id' g').rev c =
        some (Shm.swapRemove rv i) := by rw [Shm.putSeg_rev]; exact upd_same _ _ _
    simp only [step, hrev, upd_same, hnone]

theorem dropSems_all {chk : Bool} {addr : Nat} : ∀ {os : List Nat} {t t' : Nat → Option Nat}, dropSems chk addr os t = some t' →
    (∀ k, t k = none → t' k = none) ∧ ∀ o ∈ os, ∀ x, add32 chk addr o = some x → t' x = none
  | [], t, t', h => by cases h; exact ⟨fun _ e => e, fun o ho => nomatch ho⟩
  | o :: os, t, t', h => by
    simp only [dropSems] at h
    split at h
    · cases h
    · rename_i x hx
      obtain ⟨h1, h2⟩ := dropSems_all h
      refine ⟨fun k e => h1 k ?_, fun o' ho' x' hx' => ?_⟩
      · rw [upd_apply]; split
        · rfl
        · exact e
      · rcases List.mem_cons.1 ho' with rfl | ho'
        · rw [hx] at hx'; cases hx'; exact h1 x (upd_same _ _ _)
        · exact h2 o' ho' x' hx'

/-- In any state, careful callers or not: a detach that succeeds takes from the caller all the semaphores recorded for the
segment, at the places where it had them. -/
theorem detach_drops_all {chk : Bool} {s : St} {c addr id : Nat} {rv : List (Nat × Nat)} {i : Nat} (hrv : s.sh.rev c = some rv)
    (hf : Shm.findAddr addr rv = some (i, id)) (hok : (step chk s c (.shm (.dt addr) none)).2 ≠ .r .panic) {o x : Nat} (ho : o ∈ s.offs id)
    (hx : add32 chk addr o = some x) : (step chk s c (.shm (.dt addr) none)).1.tab c x = none := by
  simp only [step, hrv] at hok ⊢
  rcases shmCall_cases (chk := chk) (s := s) (c := c) (rv := rv) (op := .dt addr) (pick := none) with e | ⟨tab, ht, hn, e⟩
  · rw [e] at hok; exact absurd rfl hok
  · rw [e]
    simp only [tabAfter, hf, Option.map_eq_some_iff] at ht
    obtain ⟨t, h1, rfl⟩ := ht
    dsimp only
    rw [upd_same]
    exact (dropSems_all h1).2 o ho x hx

/-- In any state: no call forgets a place of a segment at which a semaphore was initialised. -/
theorem places_kept {chk : Bool} {s : St} {c : Nat} {op : Op} {id o : Nat} (ho : o ∈ s.offs id) : o ∈ (step chk s c op).1.offs id := by
  unfold step
  split
  · exact ho
  · rename_i rv _
    cases op with
    | shm op pick =>
      dsimp only
      rcases shmCall_cases (chk := chk) (s := s) (c := c) (rv := rv) (op := op) (pick := pick) with e | ⟨tab, ht, hn, e⟩ <;> rw [e] <;> exact ho
    | init h ps v =>
      dsimp only
      unfold semInit
      repeat' split
      all_goals first
        | exact ho
        | (dsimp only; rw [upd_apply]; split
           · rename_i e; subst e
             unfold addOff; split
             · exact ho
             · exact List.mem_append_left _ ho
           · exact ho)
    | destroy h => dsimp only; unfold semDestroy; repeat' split
                   all_goals exact ho
    | wait h => simp only [takeCall]; repeat' split
                all_goals exact ho
    | trywait h => simp only [takeCall]; repeat' split
                   all_goals exact ho
    | timedwait h e => simp only [takeCall]; repeat' split
                       all_goals exact ho
    | post h => dsimp only; repeat' split
                all_goals exact ho
    | getvalue h => dsimp only; repeat' split
                    all_goals exact ho

end Verif.SemShm
