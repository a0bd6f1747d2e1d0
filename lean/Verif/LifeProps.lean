import Verif.LifeLemmas

/-!
# C90: A signal for a process reaches that process, from its birth to its end, and nobody else

A signal meant for a process goes to a thread of that process: `kill` to the process that has the number then, SIGALRM to the one that set the
timer, SIGCHLD to the one that made the process that ended, once.  Sending signals never harms the program.

It holds if numbers are not given out twice and threads are announced in time; the theorems named `violated` show what happens otherwise,
and what is lost during `exec`.
-/

namespace Verif.Life

/-! ## Where signals go -/

/-- C90, alarms.  As long as no number is given out twice, SIGALRM only ever goes to a thread of the process whose timer it is, whatever
`exec`s it has made.  Missing: numbers that are used again (`alarm_stranger_violated`). -/
theorem alarm_own_partial (l : List Act) (hl : CarefulRun St.init l) (tid sig p : Nat)
    (h : .sent tid sig (.alarm p) ∈ (runFrom St.init l).log) : (runFrom St.init l).owner tid = some p :=
  (inv_run inv_init hl).alarm tid sig p h

/-- C90, ended children.  As long as no number is given out twice, SIGCHLD for the end of `q` only goes to a thread of the process that
made `q`, only once, and only when `q` is no more. -/
theorem child_own_partial (l : List Act) (hl : CarefulRun St.init l) (q : Nat) :
    (∀ tid sig p, .sent tid sig (.child q p) ∈ (runFrom St.init l).log →
      (runFrom St.init l).owner tid = some p ∧ .forked p q ∈ (runFrom St.init l).log ∧
      ∀ n x, (runFrom St.init l).cages n = some x → x.proc ≠ q) ∧
    ((runFrom St.init l).log.filter (isChild q)).length ≤ 1 :=
  have hi := inv_run inv_init hl
  ⟨fun tid sig p h => ⟨(hi.child tid sig q p h).1, (hi.child tid sig q p h).2.1, (hi.child tid sig q p h).2.2.2.2⟩, hi.once q⟩

/-- C90, `kill`.  A signal for a number goes to a thread of the process that has the number now, or to none if it has not announced one. -/
theorem kill_own_partial (l : List Act) (hl : CarefulRun St.init l) (num sig : Nat) (y : Cage) (hn : num < 1024)
    (hd : (runFrom St.init l).dead = false) (hy : (runFrom St.init l).cages num = some y) :
    ∃ s', step (runFrom St.init l) (.kill num sig) = some s' ∧ s'.log = (runFrom St.init l).log ++ [.sent y.main sig (.kill num)] ∧
      (y.main = 0 ∨ s'.owner y.main = some y.proc) := by
  have hi := inv_run inv_init hl
  have hk : ¬ maxCage ≤ num := Nat.not_le.mpr hn
  refine ⟨{ runFrom St.init l with log := (runFrom St.init l).log ++ [.sent y.main sig (.kill num)] }, ?_, rfl, ?_⟩
  · simp [step, hd, kill, hk, hy]
  · by_cases hm : y.main = 0
    · exact .inl hm
    · exact .inr ((hi.cage num y hy).1.own hm)

/-- C90.  A signal to a number that nobody has is not sent to anybody. -/
theorem kill_none (s : St) (num sig : Nat) (hd : s.dead = false) (hy : s.cages num = none) : step s (.kill num sig) = some s := by
  simp [step, hd, kill, hy]

/-- C90.  When the time of a timer is up and its process is there, SIGALRM is sent to it at once, and the timer goes on exactly if it is to
repeat. -/
theorem alarm_sent_partial (l : List Act) (hl : CarefulRun St.init l) (n : Nat) (x : Cage) (hd : (runFrom St.init l).dead = false)
    (hx : (runFrom St.init l).cages n = some x) (hm : x.main ≠ 0) (hon : ((runFrom St.init l).tmrs x.proc).on = true)
    (hb : ((runFrom St.init l).tmrs x.proc).bad = false) :
    ∃ s', step (runFrom St.init l) (.tick x.proc true) = some s' ∧
      s'.log = (runFrom St.init l).log ++ [.sent x.main 14 (.alarm x.proc)] ∧
      (s'.tmrs x.proc).on = ((runFrom St.init l).tmrs x.proc).again := by
  have hi := inv_run inv_init hl
  have ht := hi.tickers _ hon hb
  have hc := (hi.cage n x hx).2.2.1
  have ht0 : ((runFrom St.init l).tmrs x.proc).tickers ≠ 0 := Nat.pos_iff_ne_zero.mp ht
  refine ⟨{ runFrom St.init l with
      tmrs := put (runFrom St.init l).tmrs x.proc (((runFrom St.init l).tmrs x.proc).set ((runFrom St.init l).tmrs x.proc).again
        ((runFrom St.init l).tmrs x.proc).again)
      log := (runFrom St.init l).log ++ [.sent x.main 14 (.alarm x.proc)] }, ?_, rfl, ?_⟩
  · simp [step, hd, tick, ht0, hb, hon, hc, hx, hm]
  · simp only [put, if_true, Tmr.set]
    split
    · next h => rw [h]
    · next h => simpa using h

/-- C90.  A timer that was set keeps going over `exec`; a new process has none. -/
theorem exec_keeps_timer (s s' : St) (p : Nat) (hs : execEnd s p = some s') (hd : s'.dead = false) :
    (s'.tmrs p).on = (s.tmrs p).on ∧ (s'.tmrs p).again = (s.tmrs p).again ∧ (s'.tmrs p).tickers = (s.tmrs p).tickers := by
  unfold execEnd at hs
  split at hs
  · split at hs
    · cases hs; simp [St.abort] at hd
    · cases hs; simp [put]
  · cases hs

/-- C90.  The timer of a process that was just made is not set. -/
theorem fork_no_timer (s : St) (c new : Nat) (hd : (fork s c new).dead = false) (x : Cage) (hx : (fork s c new).cages new = some x) :
    x.proc = s.procs ∧ ((fork s c new).tmrs x.proc).on = false := by
  unfold fork at hd hx ⊢
  split at hd
  · simp [St.abort] at hd
  · next y hy =>
    simp only [hy] at hx ⊢
    split at hd
    · simp [St.abort] at hd
    · next h =>
      rw [if_neg h] at hx ⊢
      simp only [put, if_true, Option.some.injEq] at hx
      subst hx
      simp [put, newTmr]

/-- C90.  When a process ends and the process that made it is there, at its old number, with a thread announced, SIGCHLD is sent to that. -/
theorem child_sent (s : St) (p num : Nat) (x y : Cage) (hd : s.dead = false) (hm : s.mid p = some (.exit x num)) (hn : num ≠ x.parent)
    (hy : s.cages x.parent = some y) (hy0 : y.main ≠ 0) :
    ∃ s', step s (.exitEnd p) = some s' ∧ s'.log = s.log ++ [.sent y.main 17 (.child p x.pproc)] := by
  refine ⟨{ s with mid := put s.mid p none, log := s.log ++ [.sent y.main 17 (.child p x.pproc)] }, ?_, rfl⟩
  simp [step, hd, exitEnd, hm, hn, hy, hy0]

/-! ## Once gone, gone -/

theorem set_again {t : Tmr} (h1 : t.on = true) (h2 : t.again = true) : t.set t.again t.again = t := by
  cases t; simp_all [Tmr.set]

theorem gone_step {s s' : St} (hi : Inv s) {a : Act} {q : Nat} (hg : Gone s q) (hs : step s a = some s') :
    Gone s' q ∧ (∀ tid sig p, .sent tid sig (.child q p) ∈ s'.log → .sent tid sig (.child q p) ∈ s.log) ∧
    (Careful s a → (s.tmrs q).on = true → (s.tmrs q).again = true → (s.tmrs q).bad = false → s'.tmrs q = s.tmrs q) := by
  have hab : Gone s.abort q ∧ (∀ tid sig p, .sent tid sig (.child q p) ∈ s.abort.log → .sent tid sig (.child q p) ∈ s.log) ∧
      (Careful s a → (s.tmrs q).on = true → (s.tmrs q).again = true → (s.tmrs q).bad = false → s.abort.tmrs q = s.tmrs q) :=
    ⟨hg, fun tid sig p h => by simpa [St.abort] using h, fun _ _ _ _ => rfl⟩
  obtain ⟨hq, hm, hc⟩ := hg
  unfold step at hs
  split at hs
  · cases hs
  · cases a <;> simp only [Option.some.injEq] at hs
    · subst hs; unfold fork; split
      · exact hab
      · next x hx =>
        split
        · exact hab
        · refine ⟨⟨Nat.lt_succ_of_lt hq, hm, fun n y hy => ?_⟩, fun tid sig p h => by simpa using h, fun _ _ _ _ => ?_⟩
          · simp only [put] at hy
            split at hy
            · cases hy; exact fun h => absurd hq (by simp only at h; omega)
            · exact hc n y hy
          · simp only [put]; rw [if_neg (Nat.ne_of_lt hq)]
    · subst hs; unfold execBegin; split
      · exact hab
      · next c new _ x hx =>
        refine ⟨⟨hq, ?_, fun n y hy => ?_⟩, fun _ _ _ h => h, fun _ _ _ _ => rfl⟩
        · simp only [put]; rw [if_neg (fun h => hc _ x hx h.symm)]; exact hm
        · simp only [put] at hy
          split at hy
          · cases hy
          · exact hc n y hy
    · unfold execEnd at hs
      split at hs
      · next p _ x new hmp =>
        have hpq : q ≠ p := fun h => by rw [h, hmp] at hm; cases hm
        split at hs
        · cases hs; exact hab
        · cases hs
          refine ⟨⟨hq, ?_, fun n y hy => ?_⟩, fun _ _ _ h => h, fun _ _ _ _ => ?_⟩
          · simp only [put]; rw [if_neg hpq]; exact hm
          · simp only [put] at hy
            split at hy
            · cases hy
              have := (hi.mid p _ hmp).2
              simp only [Mid.cage] at this
              simp only [this]
              exact fun h => hpq h.symm
            · exact hc n y hy
          · simp only [put]; rw [if_neg hpq]
      · cases hs
    · subst hs; unfold exitBegin; split
      · exact hab
      · next x hx =>
        refine ⟨⟨hq, ?_, fun n y hy => ?_⟩, fun tid sig p h => by simpa using h, fun _ _ _ _ => rfl⟩
        · simp only [put]; rw [if_neg (fun h => hc _ x hx h.symm)]; exact hm
        · simp only [put] at hy
          split at hy
          · cases hy
          · exact hc n y hy
    · unfold exitEnd at hs
      split at hs
      · next p _ x num hmp =>
        have hpq : q ≠ p := fun h => by rw [h, hmp] at hm; cases hm
        have hmq : put s.mid p none q = none := by simp only [put]; rw [if_neg hpq]; exact hm
        simp only [Option.some.injEq] at hs
        split at hs
        · subst hs; exact ⟨⟨hq, hmq, hc⟩, fun _ _ _ h => h, fun _ _ _ _ => rfl⟩
        · split at hs
          · subst hs; exact ⟨⟨hq, hmq, hc⟩, fun _ _ _ h => h, fun _ _ _ _ => rfl⟩
          · split at hs
            · subst hs; exact hab
            · subst hs
              refine ⟨⟨hq, hmq, hc⟩, fun tid sig r h => ?_, fun _ _ _ _ => rfl⟩
              simp only [List.mem_append, List.mem_singleton, Ev.sent.injEq, Why.child.injEq] at h
              rcases h with h | ⟨_, _, h, _⟩
              · exact h
              · exact absurd h hpq
      · cases hs
    · unfold threadInit at hs
      split at hs
      · cases hs; exact hab
      · next x hx =>
        split at hs
        · cases hs
        · cases hs
          refine ⟨⟨hq, hm, fun n y hy => ?_⟩, fun _ _ _ h => h, fun _ _ _ _ => rfl⟩
          simp only [put] at hy
          split at hy
          · cases hy; exact hc _ x hx
          · exact hc n y hy
    · unfold setKill at hs
      split at hs
      · cases hs
      · split at hs
        · cases hs; exact hab
        · next x hx =>
          cases hs
          split
          · refine ⟨⟨hq, hm, fun n y hy => ?_⟩, fun _ _ _ h => h, fun _ _ _ _ => rfl⟩
            simp only [put] at hy
            split at hy
            · cases hy; exact hc _ x hx
            · exact hc n y hy
          · exact ⟨⟨hq, hm, hc⟩, fun _ _ _ h => h, fun _ _ _ _ => rfl⟩
    · subst hs; unfold kill; split
      · exact ⟨⟨hq, hm, hc⟩, fun _ _ _ h => h, fun _ _ _ _ => rfl⟩
      · split
        · exact ⟨⟨hq, hm, hc⟩, fun _ _ _ h => h, fun _ _ _ _ => rfl⟩
        · exact ⟨⟨hq, hm, hc⟩, fun tid sig p h => by simpa using h, fun _ _ _ _ => rfl⟩
    · subst hs; unfold setTimer; split
      · exact hab
      · next x hx =>
        split
        · exact hab
        · refine ⟨⟨hq, hm, hc⟩, fun _ _ _ h => h, fun _ _ _ _ => ?_⟩
          simp only [put]; rw [if_neg (fun h => hc _ x hx h.symm)]
    · next p up =>
      unfold tick at hs
      dsimp only at hs
      split at hs
      · cases hs
      · split at hs
        · next hcond =>
          cases hs
          refine ⟨⟨hq, hm, hc⟩, fun _ _ _ h => h, fun _ h1 h2 h3 => ?_⟩
          simp only [put]
          rw [if_neg]
          intro h; subst h; rcases hcond with h | h
          · rw [h3] at h; cases h
          · rw [h1] at h; cases h
        · split at hs
          · cases hs; exact ⟨⟨hq, hm, hc⟩, fun _ _ _ h => h, fun _ _ _ _ => rfl⟩
          · split at hs
            · next hon _ _ =>
              cases hs
              refine ⟨⟨hq, hm, hc⟩, fun _ _ _ h => h, fun _ h1 h2 h3 => ?_⟩
              simp only [put]
              split
              · next h => subst h; exact set_again h1 h2
              · rfl
            · next y hy =>
              have hpq : q ≠ p := fun h => by
                subst h
                have h1 := (hi.cage _ y hy).2.1
                rw [hi.tmr q hq] at h1
                exact hc _ y hy (Option.some.inj h1).symm
              split at hs
              · cases hs
                refine ⟨⟨hq, hm, hc⟩, fun tid sig p h => by simpa using h, fun _ _ _ _ => ?_⟩
                simp only [put]; rw [if_neg hpq]
              · cases hs
                refine ⟨⟨hq, hm, hc⟩, fun tid sig p h => by simpa using h, fun _ _ _ _ => ?_⟩
                simp only [put]; rw [if_neg hpq]
    · subst hs; unfold call; split
      · exact hab
      · exact ⟨⟨hq, hm, hc⟩, fun _ _ _ h => h, fun _ _ _ _ => rfl⟩

theorem gone_run {l : List Act} : ∀ {s : St}, Inv s → CarefulRun s l → ∀ {q : Nat}, Gone s q →
    Gone (runFrom s l) q ∧ (∀ tid sig p, .sent tid sig (.child q p) ∈ (runFrom s l).log → .sent tid sig (.child q p) ∈ s.log) ∧
    ((s.tmrs q).on = true → (s.tmrs q).again = true → (s.tmrs q).bad = false → (runFrom s l).tmrs q = s.tmrs q) := by
  induction l with
  | nil => exact fun _ _ _ hg => ⟨hg, fun _ _ _ h => h, fun _ _ _ => rfl⟩
  | cons a l ih =>
    intro s hi hc q hg
    simp only [runFrom]
    cases hs : step s a with
    | none => rw [Option.getD_none]; exact ih hi (by have := hc.2; rwa [hs] at this) hg
    | some s' =>
      rw [Option.getD_some]
      have h1 := gone_step hi hg hs
      have h2 := ih (inv_step hi hc.1 hs) (by have := hc.2; rwa [hs] at this) h1.1
      refine ⟨h2.1, fun tid sig p h => h1.2.1 _ _ _ (h2.2.1 _ _ _ h), fun ho ha hb => ?_⟩
      have h3 := h1.2.2 hc.1 ho ha hb
      rw [h2.2.2 (by rw [h3]; exact ho) (by rw [h3]; exact ha) (by rw [h3]; exact hb), h3]

/-! ## When nothing breaks -/

/-- A piece of a program in which threads are announced as soon as there is something to announce them to. -/
inductive Move
  | spawn (c new tid : Nat)
  | execBegin (c new : Nat)
  | execEnd (p new tid : Nat)
  | exitBegin (c : Nat)
  | exitEnd (p : Nat)
  | threadInit (c tid : Nat)
  | kill (num sig : Nat)
  | setTimer (c : Nat) (on again : Bool)
  | tick (p : Nat) (up : Bool)
  | call (c : Nat)

/-- What it does. -/
def Move.acts : Move → List Act
  | .spawn c new tid => [.fork c new, .threadInit new tid]
  | .execBegin c new => [.execBegin c new]
  | .execEnd p new tid => [.execEnd p, .threadInit new tid]
  | .exitBegin c => [.exitBegin c]
  | .exitEnd p => [.exitEnd p]
  | .threadInit c tid => [.threadInit c tid]
  | .kill num sig => [.kill num sig]
  | .setTimer c on again => [.setTimer c on again]
  | .tick p up => [.tick p up]
  | .call c => [.call c]

/-- The calls are made by processes that are there, not by the utility cage 0, and new threads are new. -/
def Proper (s : St) : Move → Prop
  | .spawn c new tid => c ≠ 0 ∧ s.cages c ≠ none ∧ new ≠ 0 ∧ new < 1024 ∧ tid ≠ 0 ∧ s.owner tid = none
  | .execBegin c new => c ≠ 0 ∧ s.cages c ≠ none ∧ new ≠ 0 ∧ new < 1024
  | .execEnd p new tid => (∃ x, s.mid p = some (.exec x new)) ∧ tid ≠ 0 ∧ s.owner tid = none
  | .exitBegin c | .threadInit c _ | .setTimer c _ _ | .call c => c ≠ 0 ∧ s.cages c ≠ none
  | .kill num _ => num ≠ 0
  | .exitEnd _ | .tick _ _ => True

/-- A run made of such pieces. -/
def ProperRun (s : St) : List Move → Prop
  | [] => True
  | m :: l => Proper s m ∧ ProperRun (runFrom s m.acts) l

/-- The state after it. -/
def runMoves (s : St) : List Move → St
  | [] => s
  | m :: l => runMoves (runFrom s m.acts) l

/-- Something went wrong. -/
def Bad : Ev → Prop
  | .abort | .tickerDied _ => True
  | .sent tid _ _ => tid = 0
  | _ => False

/-- Nothing went wrong so far, and all cages but `k` have a thread. -/
structure Sound (k : Nat) (s : St) : Prop where
  dead : s.dead = false
  log : ∀ e ∈ s.log, ¬ Bad e
  main : ∀ n x, n ≠ 0 → n ≠ k → s.cages n = some x → x.main ≠ 0 ∧ x.main ∈ x.masks
  cage : ∀ n x, n ≠ 0 → s.cages n = some x → x.parent ≠ 0 ∧ (s.tmrs x.proc).cage ≠ 0
  mid : ∀ p m, s.mid p = some m → m.cage.parent ≠ 0
  exec : ∀ p x new, s.mid p = some (.exec x new) → x.main ∈ x.masks ∧ x.proc = p ∧ new ≠ 0 ∧ new < 1024
  tmr : ∀ p, (s.tmrs p).bad = false ∧ ((s.tmrs p).on = true → (s.tmrs p).cage ≠ 0)

theorem sound_init {t : Nat} (ht : t ≠ 0) : Sound 0 (runFrom St.init [.threadInit 1 t]) := by
  have : runFrom St.init [.threadInit 1 t] = { St.init with
      cages := put St.init.cages 1 (some { proc := 1, parent := 1, pproc := 1, main := t, masks := [t] })
      owner := put St.init.owner t (some 1) } := by
    simp [runFrom, step, threadInit, St.init, ht]
  rw [this]
  constructor
  · rfl
  · intro e he; cases he
  · intro n x hn _ hx
    simp only [put, St.init] at hx
    grind
  · intro n x hn hx
    simp only [put, St.init] at hx
    simp only [St.init, newTmr]
    grind
  · intro p m h; cases h
  · intro p x new h; cases h
  · intro p; simp [St.init, newTmr]

theorem sound_fork {s : St} (h : Sound 0 s) {c new : Nat} (hc : c ≠ 0) (hcc : s.cages c ≠ none) (hn : new ≠ 0) (hn2 : new < 1024) :
    Sound new (fork s c new) ∧ (∃ x, (fork s c new).cages new = some x) ∧ (fork s c new).owner = s.owner := by
  unfold fork
  split
  · next h => exact absurd h hcc
  · next x hx =>
    obtain ⟨h1, h2, h3, h4, h5, h6, h7⟩ := h
    have hm := (h3 c x hc hc hx).2
    rw [if_neg (by unfold maxCage; grind)]
    refine ⟨⟨h1, ?_, ?_, ?_, h5, h6, ?_⟩, ⟨{ proc := s.procs, parent := c, pproc := x.proc, main := 0, masks := [0] }, by simp [put]⟩, rfl⟩
    · intro e he
      rcases List.mem_append.mp he with he | he
      · exact h2 e he
      · rw [List.mem_singleton] at he; subst he; exact id
    · intro n y hn0 hnn hy
      simp only [put] at hy
      grind
    · intro n y hn0 hy
      simp only [put] at hy ⊢
      split at hy
      · cases hy
        exact ⟨hc, by simp [newTmr, hn]⟩
      · have := h4 n y hn0 hy
        refine ⟨this.1, ?_⟩
        split
        · simp [newTmr, hn]
        · exact this.2
    · intro p
      simp only [put]
      split
      · simp [newTmr]
      · exact h7 p

theorem sound_init_thread {s s' : St} {k : Nat} (h : Sound k s) {tid : Nat} (hs : threadInit s k tid = some s') (hk : s.cages k ≠ none) :
    Sound 0 s' := by
  unfold threadInit at hs
  split at hs
  · next h => exact absurd h hk
  · next x hx =>
    split at hs
    · cases hs
    · next hcond =>
      cases hs
      obtain ⟨h1, h2, h3, h4, h5, h6, h7⟩ := h
      refine ⟨h1, h2, ?_, ?_, h5, h6, h7⟩
      · intro n y hn0 _ hy
        simp only [put] at hy
        split at hy
        · cases hy; simp; grind
        · next hnk => exact h3 n y hn0 hnk hy
      · intro n y hn0 hy
        simp only [put] at hy
        split at hy
        · next he => cases hy; exact h4 n x hn0 (by rw [he]; exact hx)
        · exact h4 n y hn0 hy

theorem Sound.weak {s : St} {k : Nat} (h : Sound 0 s) : Sound k s :=
  ⟨h.dead, h.log, fun n x hn _ hx => h.main n x hn hn hx, h.cage, h.mid, h.exec, h.tmr⟩

theorem sound_execBegin {s : St} (h : Sound 0 s) {c new : Nat} (hc : c ≠ 0) (hcc : s.cages c ≠ none) (hn : new ≠ 0) (hn2 : new < 1024) :
    Sound 0 (execBegin s c new) := by
  unfold execBegin
  split
  · next h => exact absurd h hcc
  · next x hx =>
    obtain ⟨h1, h2, h3, h4, h5, h6, h7⟩ := h
    refine ⟨h1, h2, ?_, ?_, ?_, ?_, h7⟩
    · intro n y hn0 hnn hy
      simp only [put] at hy
      grind
    · intro n y hn0 hy
      simp only [put] at hy
      grind
    · intro p m hm
      simp only [put] at hm
      split at hm
      · cases hm; exact (h4 c x hc hx).1
      · exact h5 p m hm
    · intro p y nw hm
      simp only [put] at hm
      split at hm
      · next he => cases hm; exact ⟨(h3 c x hc hc hx).2, he.symm, hn, hn2⟩
      · exact h6 p y nw hm

theorem sound_execEnd {s s' : St} (h : Sound 0 s) {p new : Nat} {x : Cage} (hm : s.mid p = some (.exec x new)) (hs : execEnd s p = some s') :
    Sound new s' ∧ s'.cages new ≠ none ∧ s'.owner = s.owner := by
  unfold execEnd at hs
  rw [hm] at hs
  dsimp only at hs
  obtain ⟨h1, h2, h3, h4, h5, h6, h7⟩ := h
  have hx := h6 p x new hm
  rw [if_neg (by have := (h7 p).1; unfold maxCage; grind)] at hs
  cases hs
  refine ⟨⟨h1, h2, ?_, ?_, ?_, ?_, ?_⟩, by simp [put], rfl⟩
  · intro n y hn0 hnn hy
    simp only [put] at hy
    grind
  · intro n y hn0 hy
    simp only [put] at hy ⊢
    split at hy
    · cases hy
      have := h5 p _ hm
      simp only [Mid.cage] at this
      exact ⟨this, by simp [hx.2.1, hx.2.2.1]⟩
    · have := h4 n y hn0 hy
      refine ⟨this.1, ?_⟩
      split
      · exact hx.2.2.1
      · exact this.2
  · intro q m hq
    simp only [put] at hq
    split at hq
    · cases hq
    · exact h5 q m hq
  · intro q y nw hq
    simp only [put] at hq
    split at hq
    · cases hq
    · exact h6 q y nw hq
  · intro q
    simp only [put]
    split
    · exact ⟨(h7 p).1, fun _ => hx.2.2.1⟩
    · exact h7 q

theorem sound_exitBegin {s : St} (h : Sound 0 s) {c : Nat} (hc : c ≠ 0) (hcc : s.cages c ≠ none) : Sound 0 (exitBegin s c) := by
  unfold exitBegin
  split
  · next h => exact absurd h hcc
  · next x hx =>
    obtain ⟨h1, h2, h3, h4, h5, h6, h7⟩ := h
    refine ⟨h1, ?_, ?_, ?_, ?_, ?_, h7⟩
    · intro e he
      rcases List.mem_append.mp he with he | he
      · exact h2 e he
      · rw [List.mem_singleton] at he; subst he; exact id
    · intro n y hn0 hnn hy
      simp only [put] at hy
      grind
    · intro n y hn0 hy
      simp only [put] at hy
      grind
    · intro p m hm
      simp only [put] at hm
      split at hm
      · cases hm; exact (h4 c x hc hx).1
      · exact h5 p m hm
    · intro p y nw hm
      simp only [put] at hm
      split at hm
      · cases hm
      · exact h6 p y nw hm

theorem sound_log {s : St} (h : Sound 0 s) {e : Ev} (he : ¬ Bad e) : Sound 0 { s with log := s.log ++ [e] } :=
  ⟨h.dead, fun e' he' => by
    rcases List.mem_append.mp he' with h1 | h1
    · exact h.log e' h1
    · rw [List.mem_singleton] at h1; subst h1; exact he, h.main, h.cage, h.mid, h.exec, h.tmr⟩

theorem sound_exitEnd {s s' : St} (h : Sound 0 s) {p : Nat} (hs : exitEnd s p = some s') : Sound 0 s' := by
  unfold exitEnd at hs
  split at hs
  · next x num hm =>
    have hf : Sound 0 { s with mid := put s.mid p none } := by
      obtain ⟨h1, h2, h3, h4, h5, h6, h7⟩ := h
      refine ⟨h1, h2, h3, h4, ?_, ?_, h7⟩
      · intro q m hq
        simp only [put] at hq
        split at hq
        · cases hq
        · exact h5 q m hq
      · intro q y nw hq
        simp only [put] at hq
        split at hq
        · cases hq
        · exact h6 q y nw hq
    simp only [Option.some.injEq] at hs
    split at hs
    · subst hs; exact hf
    · split at hs
      · subst hs; exact hf
      · next y hy =>
        have hp := h.mid p _ hm
        simp only [Mid.cage] at hp
        have := (h.main _ y hp hp hy).1
        rw [if_neg this] at hs
        subst hs
        exact sound_log hf (e := .sent y.main 17 (.child p x.pproc)) this
  · cases hs

theorem sound_tmr {s : St} (h : Sound 0 s) {p : Nat} {t : Tmr} (hc : t.cage = (s.tmrs p).cage) (hb : t.bad = false)
    (ho : t.on = true → t.cage ≠ 0) : Sound 0 { s with tmrs := put s.tmrs p t } := by
  obtain ⟨h1, h2, h3, h4, h5, h6, h7⟩ := h
  refine ⟨h1, h2, h3, ?_, h5, h6, ?_⟩
  · intro n y hn0 hy
    have := h4 n y hn0 hy
    refine ⟨this.1, ?_⟩
    simp only [put]
    split
    · next he => rw [hc, ← he]; exact this.2
    · exact this.2
  · intro q
    simp only [put]
    split
    · exact ⟨hb, ho⟩
    · exact h7 q

theorem set_cage (t : Tmr) (a b : Bool) : (t.set a b).cage = t.cage ∧ (t.set a b).bad = t.bad := by
  unfold Tmr.set; split <;> exact ⟨rfl, rfl⟩

theorem sound_setTimer {s : St} (h : Sound 0 s) {c : Nat} {on again : Bool} (hc : c ≠ 0) (hcc : s.cages c ≠ none) :
    Sound 0 (setTimer s c on again) := by
  unfold setTimer
  split
  · next h => exact absurd h hcc
  · next x hx =>
    have ht := h.tmr x.proc
    rw [if_neg (by rw [ht.1]; exact (nomatch ·))]
    have h4 := (h.cage c x hc hx).2
    exact sound_tmr h (set_cage _ _ _).1 ((set_cage _ _ _).2.trans ht.1) fun _ => by rw [(set_cage _ _ _).1]; exact h4

theorem sound_tick {s s' : St} (h : Sound 0 s) {p : Nat} {up : Bool} (hs : tick s p up = some s') : Sound 0 s' := by
  have ht := h.tmr p
  unfold tick at hs
  dsimp only at hs
  split at hs
  · cases hs
  · split at hs
    · next hcond =>
      cases hs
      exact sound_tmr (t := { s.tmrs p with tickers := (s.tmrs p).tickers - 1 }) h rfl ht.1 ht.2
    · next hcond =>
      have hon : (s.tmrs p).on = true := by
        cases ho : (s.tmrs p).on with
        | true => rfl
        | false => exact absurd (.inr ho) hcond
      have hset := sound_tmr (t := (s.tmrs p).set (s.tmrs p).again (s.tmrs p).again) h (set_cage _ _ _).1
        ((set_cage _ _ _).2.trans ht.1) (fun _ => by rw [(set_cage _ _ _).1]; exact ht.2 hon)
      split at hs
      · cases hs; exact h
      · split at hs
        · cases hs; exact hset
        · next y hy =>
          have := (h.main _ y (ht.2 hon) (ht.2 hon) hy).1
          rw [if_neg this] at hs
          cases hs
          exact sound_log hset (e := .sent y.main 14 (.alarm p)) this

theorem sound_move {s : St} (h : Sound 0 s) {m : Move} (hp : Proper s m) : Sound 0 (runFrom s m.acts) := by
  cases m with
  | spawn c new tid =>
    obtain ⟨h1, h2, h3, h4, h5, h6⟩ := hp
    obtain ⟨hf, ⟨x, hx⟩, ho⟩ := sound_fork h h1 h2 h3 h4
    simp only [Move.acts, runFrom, step, h.dead, Bool.false_eq_true, if_false, Option.getD_some, hf.dead]
    cases ht : threadInit (fork s c new) new tid with
    | none => simp [threadInit, hx, h5, ho, h6] at ht
    | some s' => exact sound_init_thread hf ht (by rw [hx]; exact (nomatch ·))
  | execBegin c new =>
    obtain ⟨h1, h2, h3, h4⟩ := hp
    simp only [Move.acts, runFrom, step, h.dead, Bool.false_eq_true, if_false, Option.getD_some]
    exact sound_execBegin h h1 h2 h3 h4
  | execEnd p new tid =>
    obtain ⟨⟨x, hm⟩, h1, h2⟩ := hp
    simp only [Move.acts, runFrom, step, h.dead, Bool.false_eq_true, if_false]
    cases he : execEnd s p with
    | none =>
      unfold execEnd at he
      rw [hm] at he
      dsimp only at he
      split at he <;> cases he
    | some s1 =>
      obtain ⟨hf, hc, ho⟩ := sound_execEnd h hm he
      simp only [Option.getD_some, hf.dead, Bool.false_eq_true, if_false]
      cases ht : threadInit s1 new tid with
      | none =>
        cases hx : s1.cages new with
        | none => exact absurd hx hc
        | some y => simp [threadInit, hx, h1, ho, h2] at ht
      | some s' => exact sound_init_thread hf ht hc
  | exitBegin c =>
    simp only [Move.acts, runFrom, step, h.dead, Bool.false_eq_true, if_false, Option.getD_some]
    exact sound_exitBegin h hp.1 hp.2
  | exitEnd p =>
    simp only [Move.acts, runFrom, step, h.dead, Bool.false_eq_true, if_false]
    cases he : exitEnd s p with
    | none => exact h
    | some s' => exact sound_exitEnd h he
  | threadInit c tid =>
    simp only [Move.acts, runFrom, step, h.dead, Bool.false_eq_true, if_false]
    cases he : threadInit s c tid with
    | none => exact h
    | some s' => exact sound_init_thread (h.weak (k := c)) he hp.2
  | kill num sig =>
    simp only [Move.acts, runFrom, step, h.dead, Bool.false_eq_true, if_false, Option.getD_some]
    unfold kill
    split
    · exact h
    · split
      · exact h
      · next y hy => exact sound_log h (e := .sent y.main sig (.kill num)) (h.main num y hp hp hy).1
  | setTimer c on again =>
    simp only [Move.acts, runFrom, step, h.dead, Bool.false_eq_true, if_false, Option.getD_some]
    exact sound_setTimer h hp.1 hp.2
  | tick p up =>
    simp only [Move.acts, runFrom, step, h.dead, Bool.false_eq_true, if_false]
    cases he : tick s p up with
    | none => exact h
    | some s' => exact sound_tick h he
  | call c =>
    simp only [Move.acts, runFrom, step, h.dead, Bool.false_eq_true, if_false, Option.getD_some]
    unfold call
    split
    · next h => exact absurd h hp.2
    · exact h

/-- C90, nothing breaks.  If every process announces a thread as soon as it is there and after each `exec`, and calls come from processes
that are in the table, no signal makes the program or a timer panic and none is sent to the thread 0.  Missing: the moments before a
thread is announced (`newborn_violated`, `exec_alarm_violated`, `exec_child_violated`), calls of other threads during `exec`
(`exec_threads_violated`). -/
theorem no_harm_partial (t : Nat) (ht : t ≠ 0) (ms : List Move) (hp : ProperRun (runFrom St.init [.threadInit 1 t]) ms) :
    (runMoves (runFrom St.init [.threadInit 1 t]) ms).dead = false ∧
      ∀ e ∈ (runMoves (runFrom St.init [.threadInit 1 t]) ms).log, ¬ Bad e := by
  suffices H : ∀ ms s, Sound 0 s → ProperRun s ms → Sound 0 (runMoves s ms) from
    have := H ms _ (sound_init ht) hp
    ⟨this.dead, this.log⟩
  intro ms
  induction ms with
  | nil => exact fun s h _ => h
  | cons m ms ih => exact fun s h hp => ih _ (sound_move h hp.1) hp.2

/-! ## Cases that meet the hypotheses -/

instance (s : St) (a : Act) : Decidable (Careful s a) :=
  match a with
  | .fork _ new => inferInstanceAs (Decidable (s.given new = none))
  | .execBegin c new => inferInstanceAs (Decidable (s.given new = none ∨ new = c))
  | .setKill c tid =>
    match h : s.cages c with
    | none => isTrue (by simp [Careful, h])
    | some x => if h' : s.owner tid = some x.proc then isTrue (by simp [Careful, h, h']) else isFalse (by simp [Careful, h, h'])
  | .execEnd _ | .exitBegin _ | .exitEnd _ | .threadInit _ _ | .kill _ _ | .setTimer _ _ _ | .tick _ _ | .call _ => isTrue trivial

instance instDecCareful (s : St) : (l : List Act) → Decidable (CarefulRun s l)
  | [] => isTrue trivial
  | a :: l => @instDecidableAnd _ _ _ (instDecCareful ((step s a).getD s) l)

/-- A process makes another, sets a timer that repeats, and becomes another program under another number; the alarm comes before and after.
The other process ends. -/
def life : List Act :=
  [.threadInit 1 100, .fork 1 2, .threadInit 2 200, .setTimer 2 true true, .tick 2 true, .execBegin 2 3, .tick 2 true, .execEnd 2,
    .threadInit 3 201, .tick 2 true, .kill 3 15, .exitBegin 3, .exitEnd 2]

/-- Meets `alarm_own_partial`, `child_own_partial`: what is sent to whom. -/
example : CarefulRun St.init life ∧ (runFrom St.init life).log =
      [.forked 1 2, .sent 200 14 (.alarm 2), .sent 201 14 (.alarm 2), .sent 201 15 (.kill 3), .exited 2, .sent 100 17 (.child 2 1)] ∧
    (runFrom St.init life).owner 200 = some 2 ∧ (runFrom St.init life).owner 201 = some 2 ∧ (runFrom St.init life).owner 100 = some 1 := by
  decide +kernel

/-- Meets `kill_own_partial` and `alarm_sent_partial`: the state before the second alarm. -/
example : CarefulRun St.init (life.take 9) ∧ (runFrom St.init (life.take 9)).dead = false ∧
    (runFrom St.init (life.take 9)).cages 3 = some { proc := 2, parent := 1, pproc := 1, main := 201, masks := [201] } ∧
    ((runFrom St.init (life.take 9)).tmrs 2).on = true ∧ ((runFrom St.init (life.take 9)).tmrs 2).bad = false := by
  decide +kernel

/-- Meets `kill_none`: between the two halves of `exec` nobody has the number. -/
example : (runFrom St.init (life.take 6)).dead = false ∧ (runFrom St.init (life.take 6)).cages 2 = none := by
  decide +kernel

/-- Meets `exec_keeps_timer`: the timer was set. -/
example : ∃ s', execEnd (runFrom St.init (life.take 7)) 2 = some s' ∧ s'.dead = false ∧ (s'.tmrs 2).on = true := by
  refine ⟨_, rfl, ?_⟩
  decide +kernel

/-- Meets `fork_no_timer`: the process that is made has none although the one that makes it has. -/
example : (fork (runFrom St.init (life.take 5)) 2 3).dead = false ∧ (runFrom St.init (life.take 5)).procs = 3 ∧
    (fork (runFrom St.init (life.take 5)) 2 3).cages 3 = some { proc := 3, parent := 2, pproc := 2, main := 0, masks := [0] } ∧
    ((fork (runFrom St.init (life.take 5)) 2 3).tmrs 2).on = true := by
  decide +kernel

/-- Meets `child_sent`. -/
example : (runFrom St.init (life.take 12)).dead = false ∧ (runFrom St.init (life.take 12)).mid 2 =
      some (.exit { proc := 2, parent := 1, pproc := 1, main := 201, masks := [201] } 3) ∧
    (runFrom St.init (life.take 12)).cages 1 = some { proc := 1, parent := 1, pproc := 1, main := 100, masks := [100] } := by
  decide +kernel

/-- Meets `no_harm_partial`: a run with a process that is made, an `exec` under the old number and an exit. -/
example : ProperRun (runFrom St.init [.threadInit 1 100]) [.spawn 1 2 200, .setTimer 2 true true, .execBegin 2 2, .tick 2 true, .kill 2 15,
    .execEnd 2 2 201, .tick 2 true, .exitBegin 2, .exitEnd 2] := by
  refine ⟨?_, ?_, ?_, ?_, ?_, ⟨⟨_, rfl⟩, ?_⟩, ?_, ?_, ?_, ?_⟩ <;> (try simp only [Proper, ProperRun]) <;> decide +kernel

/-! ## What does not hold -/

/-- C90 does not hold: a process that was just made, or that has just done `exec`, has no thread announced; `kill` sends the signal to the
thread 0. -/
theorem newborn_violated :
    CarefulRun St.init [.threadInit 1 100, .fork 1 2, .kill 2 15] ∧
    .sent 0 15 (.kill 2) ∈ (runFrom St.init [.threadInit 1 100, .fork 1 2, .kill 2 15]).log ∧
    CarefulRun St.init [.threadInit 1 100, .execBegin 1 1, .execEnd 1, .kill 1 15] ∧
    .sent 0 15 (.kill 1) ∈ (runFrom St.init [.threadInit 1 100, .execBegin 1 1, .execEnd 1, .kill 1 15]).log := by
  decide +kernel

/-- C90 does not hold: if the timer's time is up after `exec` and before a thread is announced, the timer's thread panics and no SIGALRM is
sent; the next `setitimer` of the process, or its next `exec`, ends the whole program. -/
theorem exec_alarm_violated :
    let l : List Act := [.threadInit 1 100, .fork 1 2, .threadInit 2 200, .setTimer 2 true true, .execBegin 2 2, .execEnd 2, .tick 2 true]
    CarefulRun St.init l ∧ (runFrom St.init l).log = [.forked 1 2, .tickerDied 2] ∧ (runFrom St.init l).dead = false ∧
    (runFrom St.init (l ++ [.threadInit 2 200])).dead = false ∧
    (∀ on again, (runFrom St.init (l ++ [.threadInit 2 200, .setTimer 2 on again])).dead = true) ∧
    (runFrom St.init (l ++ [.threadInit 2 200, .execBegin 2 2, .execEnd 2])).dead = true := by
  decide +kernel

/-- C90 does not hold: a SIGALRM that falls into an `exec` is lost, and if the timer was to ring once it never rings. -/
theorem exec_alarm_lost_violated :
    let l : List Act := [.threadInit 1 100, .setTimer 1 true false, .execBegin 1 1, .tick 1 true, .execEnd 1, .threadInit 1 100]
    CarefulRun St.init l ∧ (runFrom St.init l).log = [] ∧ ((runFrom St.init l).tmrs 1).on = false := by
  decide +kernel

/-- After these a process is gone whose end was not told to the process that made it. -/
def untold : List (List Act) :=
  [-- it ends while the other is in the middle of `exec`
   [.threadInit 1 100, .fork 1 2, .threadInit 2 200, .execBegin 1 1, .exitBegin 2, .exitEnd 2, .execEnd 1, .threadInit 1 100],
   -- the other has got a new number by `exec`
   [.threadInit 1 100, .fork 1 2, .threadInit 2 200, .execBegin 1 3, .execEnd 1, .threadInit 3 100, .exitBegin 2, .exitEnd 2]]

/-- C90 does not hold: the end of a process while the one that made it is in the middle of `exec`, or after that got another number by
`exec`, is told to nobody, then or later: no run after it has a SIGCHLD for it, although the process that made it is there. -/
theorem child_lost_violated : ∀ l ∈ untold, CarefulRun St.init l ∧ (runFrom St.init l).dead = false ∧
    .forked 1 2 ∈ (runFrom St.init l).log ∧ .exited 2 ∈ (runFrom St.init l).log ∧
    (∃ n, ∃ x, (runFrom St.init l).cages n = some x ∧ x.proc = 1 ∧ x.main = 100) ∧
    ∀ l', CarefulRun (runFrom St.init l) l' → ∀ tid sig p, .sent tid sig (.child 2 p) ∉ (runFrom (runFrom St.init l) l').log := by
  have main : ∀ l ∈ untold, CarefulRun St.init l ∧ (runFrom St.init l).dead = false ∧ (runFrom St.init l).log = [.forked 1 2, .exited 2] ∧
      2 < (runFrom St.init l).procs ∧ (runFrom St.init l).mid 2 = none ∧ (runFrom St.init l).given 2 = some 2 ∧
      (runFrom St.init l).cages 2 = none ∧ ((runFrom St.init l).tmrs 2).cage = 2 := by
    decide +kernel
  have there : ∀ l ∈ untold, ∃ n ∈ [1, 3], (runFrom St.init l).cages n =
      some { proc := 1, parent := 1, pproc := 1, main := 100, masks := [100] } := by
    decide +kernel
  intro l hl
  obtain ⟨h1, h2, h3, h4, h5, h6, h7, h8⟩ := main l hl
  have hi := inv_run inv_init h1
  refine ⟨h1, h2, by rw [h3]; decide, by rw [h3]; decide, ?_, fun l' hl' tid sig p h => ?_⟩
  · obtain ⟨n, _, h⟩ := there l hl
    exact ⟨n, _, h, rfl, rfl⟩
  · have hg : Gone (runFrom St.init l) 2 := ⟨h4, h5, fun n x hx hq => by
      have h9 := (hi.cage n x hx).2.2.1
      rw [hq, h8] at h9
      rw [← h9, h7] at hx
      cases hx⟩
    have := (gone_run hi hl' hg).2.1 tid sig p h
    rw [h3] at this
    simp at this

/-- C90 does not hold: while one thread of a process is in the middle of `exec`, any call of another thread of the process ends the whole
program, all processes with it. -/
theorem exec_threads_violated :
    let l : List Act := [.threadInit 1 100, .fork 1 2, .threadInit 2 200, .execBegin 2 2, .call 2]
    CarefulRun St.init l ∧ (runFrom St.init l).dead = true := by
  decide +kernel

/-- C90 does not hold: the end of a process after the `exec` of the one that made it and before that has announced a thread ends the whole
program. -/
theorem exec_child_violated :
    let l : List Act := [.threadInit 1 100, .fork 1 2, .threadInit 2 200, .execBegin 1 1, .execEnd 1, .exitBegin 2, .exitEnd 2]
    CarefulRun St.init l ∧ (runFrom St.init l).dead = true := by
  decide +kernel

/-- C90 does not hold: a timer is not stopped by the end of its process; if the number is given to another process, that gets the SIGALRM
of the first. -/
theorem alarm_stranger_violated :
    let l : List Act := [.threadInit 1 100, .fork 1 2, .threadInit 2 200, .setTimer 2 true true, .exitBegin 2, .exitEnd 2, .fork 1 2,
      .threadInit 2 300, .tick 2 true]
    .sent 300 14 (.alarm 2) ∈ (runFrom St.init l).log ∧ (runFrom St.init l).owner 300 = some 3 ∧
    ((runFrom St.init l).tmrs 3).on = false := by
  decide +kernel

/-- C90 does not hold: a timer that repeats outlives its process; whatever happens after, its thread goes on for ever. -/
theorem timer_outlives_violated :
    let l : List Act := [.threadInit 1 100, .fork 1 2, .threadInit 2 200, .setTimer 2 true true, .exitBegin 2, .exitEnd 2]
    CarefulRun St.init l ∧ .exited 2 ∈ (runFrom St.init l).log ∧
    ∀ l', CarefulRun (runFrom St.init l) l' → ((runFrom (runFrom St.init l) l').tmrs 2).on = true ∧
      ((runFrom (runFrom St.init l) l').tmrs 2).tickers = 1 := by
  intro l
  have main : CarefulRun St.init l ∧ .exited 2 ∈ (runFrom St.init l).log ∧
      2 < (runFrom St.init l).procs ∧ (runFrom St.init l).mid 2 = none ∧ (runFrom St.init l).cages 2 = none ∧
      (runFrom St.init l).tmrs 2 = { cage := 2, on := true, again := true, bad := false, tickers := 1 } := by
    decide +kernel
  obtain ⟨h1, h2, h4, h5, h7, h8⟩ := main
  have hi := inv_run inv_init h1
  refine ⟨h1, h2, fun l' hl' => ?_⟩
  have hg : Gone (runFrom St.init l) 2 := ⟨h4, h5, fun n x hx hq => by
    have h9 := (hi.cage n x hx).2.2.1
    rw [hq, h8] at h9
    rw [← h9, h7] at hx
    cases hx⟩
  rw [(gone_run hi hl' hg).2.2 (by rw [h8]) (by rw [h8]) (by rw [h8]), h8]
  exact ⟨rfl, rfl⟩

/-- C90 does not hold: the call that notes a thread as the one to be signalled takes the thread that makes the call; made by a thread of
another process, signals to the process then go to that. -/
theorem set_kill_violated :
    let l : List Act := [.threadInit 1 100, .fork 1 2, .setKill 2 100, .kill 2 15]
    .sent 100 15 (.kill 2) ∈ (runFrom St.init l).log ∧ (runFrom St.init l).owner 100 = some 1 := by
  decide +kernel

end Verif.Life
