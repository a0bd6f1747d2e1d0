import Verif.Life

/-!
# Signals over the life of a process: an invariant
-/

namespace Verif.Life

/-- The cage of a call that has taken it out of the table. -/
def Mid.cage : Mid → Cage
  | .exec x _ => x
  | .exit x _ => x

/-- Numbers are not given out twice, except that `exec` may keep the number, and threads are noted by their own process. -/
def Careful (s : St) : Act → Prop
  | .fork _ new => s.given new = none
  | .execBegin c new => s.given new = none ∨ new = c
  | .setKill c tid => ∀ x, s.cages c = some x → s.owner tid = some x.proc
  | _ => True

/-- A run all of whose steps are careful. -/
def CarefulRun (s : St) : List Act → Prop
  | [] => True
  | a :: l => Careful s a ∧ CarefulRun ((step s a).getD s) l

/-- The process is no more. -/
def Gone (s : St) (q : Nat) : Prop := q < s.procs ∧ s.mid q = none ∧ ∀ n x, s.cages n = some x → x.proc ≠ q

/-- A SIGCHLD for the end of `q`. -/
def isChild (q : Nat) : Ev → Bool
  | .sent _ _ (.child q' _) => q' == q
  | _ => false

/-- What holds of a cage, in the table or held by a call. -/
structure COk (s : St) (x : Cage) : Prop where
  par : s.given x.parent = some x.pproc
  bound : x.proc < s.procs
  own : x.main ≠ 0 → s.owner x.main = some x.proc
  forked : 2 ≤ x.proc → .forked x.pproc x.proc ∈ s.log
  first : x.proc < 2 → x.pproc = x.proc

structure Inv (s : St) : Prop where
  cage : ∀ n x, s.cages n = some x → COk s x ∧ s.given n = some x.proc ∧ (s.tmrs x.proc).cage = n ∧ s.mid x.proc = none
  mid : ∀ p m, s.mid p = some m → COk s m.cage ∧ m.cage.proc = p
  exec : ∀ p x new, s.mid p = some (.exec x new) → s.given new = some p ∧ s.cages new = none
  two : 2 ≤ s.procs
  tmr : ∀ p, p < s.procs → s.given (s.tmrs p).cage = some p
  given : ∀ n p, s.given n = some p → p < s.procs
  idle : ∀ p, s.procs ≤ p → (s.tmrs p).tickers = 0
  tickers : ∀ p, (s.tmrs p).on = true → (s.tmrs p).bad = false → 0 < (s.tmrs p).tickers
  alarm : ∀ tid sig p, .sent tid sig (.alarm p) ∈ s.log → s.owner tid = some p
  child : ∀ tid sig q p, .sent tid sig (.child q p) ∈ s.log → s.owner tid = some p ∧ .forked p q ∈ s.log ∧ Gone s q
  once : ∀ q, (s.log.filter (isChild q)).length ≤ 1

theorem inv_init : Inv St.init := by
  constructor
  · intro n x hx
    simp only [St.init] at hx
    split at hx
    · next hn =>
      cases hx
      exact ⟨⟨by simp [St.init, hn], by simp [St.init, hn], fun h => absurd rfl h, fun h => absurd hn (Nat.not_lt.mpr h), fun _ => rfl⟩,
        by simp [St.init, hn], rfl, rfl⟩
    · cases hx
  · intro p m h; cases h
  · intro p x new h; cases h
  · exact Nat.le_refl 2
  · intro p hp; simp only [St.init] at hp; simp [St.init, newTmr, hp]
  · intro n p h; simp only [St.init] at h ⊢; grind
  · intro p h; rfl
  · intro p h; cases h
  · intro tid sig p h; cases h
  · intro tid sig q p h; cases h
  · intro q; simp [St.init]

theorem COk.mono {s s' : St} {x : Cage} (h : COk s x) (hg : ∀ n p, s.given n = some p → s'.given n = some p)
    (hp : s.procs ≤ s'.procs) (ho : ∀ t p, s.owner t = some p → s'.owner t = some p) (hl : ∀ e, e ∈ s.log → e ∈ s'.log) : COk s' x :=
  ⟨hg _ _ h.par, Nat.lt_of_lt_of_le h.bound hp, fun hm => ho _ _ (h.own hm), fun h2 => hl _ (h.forked h2), h.first⟩

theorem filter_mem {l : List Ev} {q : Nat} (h : 0 < (l.filter (isChild q)).length) : ∃ tid sig p, Ev.sent tid sig (.child q p) ∈ l := by
  obtain ⟨e, he⟩ := List.exists_mem_of_length_pos h
  rw [List.mem_filter] at he
  obtain ⟨h1, h2⟩ := he
  match e, h2 with
  | .sent tid sig (.child q' p), h2 =>
    simp only [isChild, beq_iff_eq] at h2
    subst h2
    exact ⟨tid, sig, p, h1⟩

theorem inv_abort {s : St} (hi : Inv s) : Inv s.abort := by
  have hm : ∀ x, COk s x → COk s.abort x := fun x h => h.mono (fun _ _ h => h) (Nat.le_refl _) (fun _ _ h => h) fun e he => by
    simp [St.abort, he]
  obtain ⟨h1, h2, h3, h0, h4, h5, hz, h6, h7, h8, h9⟩ := hi
  constructor
  · exact fun n x h => ⟨hm _ (h1 n x h).1, (h1 n x h).2⟩
  · exact fun p m h => ⟨hm _ (h2 p m h).1, (h2 p m h).2⟩
  · exact h3
  · exact h0
  · exact h4
  · exact h5
  · exact hz
  · exact h6
  · intro tid sig p h; simp [St.abort] at h; exact h7 _ _ _ h
  · intro tid sig q p h; simp [St.abort] at h; have := h8 _ _ _ _ h; simpa [St.abort, Gone] using this
  · intro q; simpa [St.abort, isChild] using h9 q

theorem inv_fork {s : St} (hi : Inv s) {c new : Nat} (hc : s.given new = none) : Inv (fork s c new) := by
  unfold fork
  split
  · exact inv_abort hi
  · next x hx =>
    split
    · exact inv_abort hi
    · obtain ⟨h1, h2, h3, h0, h4, h5, hz, h6, h7, h8, h9⟩ := hi
      have hcn := h1 c x hx
      have hn : s.cages new = none := by
        cases hn : s.cages new with
        | none => rfl
        | some y => have := (h1 new y hn).2.1; rw [hc] at this; cases this
      have hmp : s.mid s.procs = none := by
        cases hm : s.mid s.procs with
        | none => rfl
        | some m => have := h2 _ _ hm; have := this.1.bound; rw [(h2 _ _ hm).2] at this; exact absurd this (Nat.lt_irrefl _)
      have hmono : ∀ y, COk s y → COk { s with
          cages := put s.cages new (some { proc := s.procs, parent := c, pproc := x.proc, main := 0, masks := [0] })
          tmrs := put s.tmrs s.procs (newTmr new)
          procs := s.procs + 1
          given := put s.given new (some s.procs)
          log := s.log ++ [.forked x.proc s.procs] } y := fun y h => by
        refine h.mono (fun n p hn => ?_) (Nat.le_succ _) (fun _ _ h => h) (fun e he => ?_)
        · simp only [put]; grind
        · simp [he]
      constructor
      · intro n y hy
        by_cases hnn : n = new
        · subst hnn
          simp only [put, if_true, Option.some.injEq] at hy
          subst hy
          refine ⟨⟨?_, Nat.lt_succ_self _, fun h => absurd rfl h, fun _ => by simp, fun h => ?_⟩, by simp [put], by simp [put, newTmr], hmp⟩
          · simp only [put]; grind
          · exact absurd h (Nat.not_lt.mpr h0)
        · have hy' : s.cages n = some y := by simpa [put, hnn] using hy
          have := h1 n y hy'
          exact ⟨hmono _ this.1, by simp [put, hnn, this.2.1], by have := this.1.bound; simp [put]; grind, this.2.2.2⟩
      · intro p m hm
        exact ⟨hmono _ (h2 p m hm).1, (h2 p m hm).2⟩
      · intro p y nw hm
        have := h3 p y nw hm
        simp only [put]
        grind
      · exact Nat.le_succ_of_le h0
      · intro p hp
        simp only [put, newTmr] at hp ⊢
        grind
      · intro n p hn
        simp only [put] at hn ⊢
        grind
      · intro p hp
        simp only at hp
        simp only [put]
        split
        · rfl
        · exact hz p (Nat.le_of_succ_le hp)
      · intro p
        simp only [put, newTmr]
        grind
      · intro tid sig p h
        simp at h
        exact h7 _ _ _ h
      · intro tid sig q p h
        simp at h
        have := h8 _ _ _ _ h
        refine ⟨this.1, by simp [this.2.1], ?_⟩
        have hg := this.2.2
        unfold Gone at hg ⊢
        refine ⟨Nat.lt_succ_of_lt hg.1, hg.2.1, fun n y hy => ?_⟩
        simp only [put] at hy
        grind
      · intro q
        simpa [isChild] using h9 q

theorem Gone.of {s s' : St} {q : Nat} (h : Gone s q) (hp : s.procs ≤ s'.procs) (hm : s'.mid q = none)
    (hc : ∀ n x, s'.cages n = some x → x.proc ≠ q) : Gone s' q :=
  ⟨Nat.lt_of_lt_of_le h.1 hp, hm, hc⟩

theorem inv_execBegin {s : St} (hi : Inv s) {c new : Nat} (hc : s.given new = none ∨ new = c) : Inv (execBegin s c new) := by
  unfold execBegin
  split
  · exact inv_abort hi
  · next x hx =>
    obtain ⟨h1, h2, h3, h0, h4, h5, hz, h6, h7, h8, h9⟩ := hi
    have hcn := h1 c x hx
    have hg : ∀ n p, s.given n = some p → put s.given new (some x.proc) n = some p := by
      intro n p h; simp only [put]; grind
    have hmono : ∀ y, COk s y → COk { s with cages := put s.cages c none, mid := put s.mid x.proc (some (.exec x new)),
                                             given := put s.given new (some x.proc) } y := fun y h =>
      h.mono hg (Nat.le_refl _) (fun _ _ h => h) fun _ h => h
    constructor
    · intro n y hy
      simp only [put] at hy
      split at hy
      · cases hy
      · next hn =>
        have := h1 n y hy
        refine ⟨hmono _ this.1, hg _ _ this.2.1, this.2.2.1, ?_⟩
        simp only [put]
        grind
    · intro p m hm
      simp only [put] at hm
      split at hm
      · next hp => cases hm; exact ⟨hmono _ hcn.1, hp.symm⟩
      · exact ⟨hmono _ (h2 p m hm).1, (h2 p m hm).2⟩
    · intro p y nw hm
      simp only [put] at hm
      split at hm
      · next hp =>
        cases hm
        refine ⟨by simp [put, hp], ?_⟩
        simp only [put]
        split
        · rfl
        · next hn =>
          rcases hc with hc | hc
          · cases hcn' : s.cages new with
            | none => rfl
            | some y => have := (h1 new y hcn').2.1; rw [hc] at this; cases this
          · exact absurd hc hn
      · have := h3 p y nw hm
        exact ⟨hg _ _ this.1, by simp only [put]; split <;> grind⟩
    · exact h0
    · exact fun p hp => hg _ _ (h4 p hp)
    · intro n p hn
      simp only [put] at hn
      have := hcn.1.bound
      grind
    · exact hz
    · exact h6
    · exact h7
    · intro tid sig q p h
      have := h8 _ _ _ _ h
      refine ⟨this.1, this.2.1, this.2.2.of (Nat.le_refl _) ?_ fun n y hy => ?_⟩
      · have := this.2.2.2.2 c x hx
        simp only [put]
        rw [if_neg (fun h => this h.symm)]
        exact (h8 _ _ _ _ h).2.2.2.1
      · simp only [put] at hy
        split at hy
        · cases hy
        · exact this.2.2.2.2 n y hy
    · exact h9

theorem inv_execEnd {s s' : St} (hi : Inv s) {p : Nat} (hs : execEnd s p = some s') : Inv s' := by
  unfold execEnd at hs
  split at hs
  · next x new hm =>
    split at hs
    · cases hs; exact inv_abort hi
    · cases hs
      obtain ⟨h1, h2, h3, h0, h4, h5, hz, h6, h7, h8, h9⟩ := hi
      have hxm := h2 p _ hm
      simp only [Mid.cage] at hxm
      have hxe := h3 p x new hm
      have hno : ∀ n y, s.cages n = some y → y.proc ≠ p := by
        intro n y hy h; have := (h1 n y hy).2.2.2; rw [h, hm] at this; cases this
      have hmono : ∀ y, COk s y → COk { s with
          cages := put s.cages new (some { x with main := 0, masks := [0] })
          tmrs := put s.tmrs p { s.tmrs p with cage := new }
          mid := put s.mid p none } y := fun y h =>
        h.mono (fun _ _ h => h) (Nat.le_refl _) (fun _ _ h => h) fun _ h => h
      constructor
      · intro n y hy
        simp only [put] at hy
        split at hy
        · next hn =>
          cases hy
          have hc := hmono _ hxm.1
          exact ⟨⟨hc.par, hc.bound, fun h => absurd rfl h, hc.forked, hc.first⟩, by rw [hn]; simpa [hxm.2] using hxe.1,
            by simp [put, hxm.2, hn], by simp [put, hxm.2]⟩
        · have := h1 n y hy
          have hne := hno n y hy
          exact ⟨hmono _ this.1, this.2.1, by simp [put, hne, this.2.2.1], by simp [put, hne, this.2.2.2]⟩
      · intro p' m hm'
        simp only [put] at hm'
        split at hm'
        · cases hm'
        · exact ⟨hmono _ (h2 p' m hm').1, (h2 p' m hm').2⟩
      · intro p' y nw hm'
        simp only [put] at hm'
        split at hm'
        · cases hm'
        · next hp =>
          have := h3 p' y nw hm'
          refine ⟨this.1, ?_⟩
          simp only [put]
          split
          · next he => rw [he, hxe.1] at this; have := this.1; simp at this; exact absurd this.symm hp
          · exact this.2
      · exact h0
      · intro p' hp'
        simp only [put]
        split
        · next he => rw [he]; exact hxe.1
        · exact h4 p' hp'
      · exact h5
      · intro p' hp'
        simp only [put]
        split
        · next he => rw [← he]; exact hz p' hp'
        · exact hz p' hp'
      · intro p'
        simp only [put]
        split
        · next he => rw [← he]; exact h6 p'
        · exact h6 p'
      · exact h7
      · intro tid sig q r h
        have := h8 _ _ _ _ h
        refine ⟨this.1, this.2.1, this.2.2.of (Nat.le_refl _) ?_ fun n y hy => ?_⟩
        · simp only [put]; split
          · rfl
          · exact this.2.2.2.1
        · simp only [put] at hy
          split at hy
          · cases hy
            intro hq
            have h1 := this.2.2.2.1
            simp only at hq
            rw [← hq, hxm.2, hm] at h1
            cases h1
          · exact this.2.2.2.2 n y hy
      · exact h9
  · cases hs

theorem inv_exitBegin {s : St} (hi : Inv s) {c : Nat} : Inv (exitBegin s c) := by
  unfold exitBegin
  split
  · exact inv_abort hi
  · next x hx =>
    obtain ⟨h1, h2, h3, h0, h4, h5, hz, h6, h7, h8, h9⟩ := hi
    have hcn := h1 c x hx
    have hmono : ∀ y, COk s y → COk { s with cages := put s.cages c none, mid := put s.mid x.proc (some (.exit x c)),
                                             log := s.log ++ [.exited x.proc] } y := fun y h =>
      h.mono (fun _ _ h => h) (Nat.le_refl _) (fun _ _ h => h) fun _ h => by simp [h]
    constructor
    · intro n y hy
      simp only [put] at hy
      split at hy
      · cases hy
      · next hn =>
        have := h1 n y hy
        refine ⟨hmono _ this.1, this.2.1, this.2.2.1, ?_⟩
        simp only [put]
        grind
    · intro p m hm
      simp only [put] at hm
      split at hm
      · next hp => cases hm; exact ⟨hmono _ hcn.1, hp.symm⟩
      · exact ⟨hmono _ (h2 p m hm).1, (h2 p m hm).2⟩
    · intro p y nw hm
      simp only [put] at hm
      split at hm
      · cases hm
      · have := h3 p y nw hm
        exact ⟨this.1, by simp only [put]; split <;> grind⟩
    · exact h0
    · exact h4
    · exact h5
    · exact hz
    · exact h6
    · intro tid sig p h
      simp at h
      exact h7 _ _ _ h
    · intro tid sig q p h
      simp at h
      have := h8 _ _ _ _ h
      refine ⟨this.1, by simp [this.2.1], this.2.2.of (Nat.le_refl _) ?_ fun n y hy => ?_⟩
      · have := this.2.2.2.2 c x hx
        simp only [put]
        rw [if_neg (fun h => this h.symm)]
        exact (h8 _ _ _ _ h).2.2.2.1
      · simp only [put] at hy
        split at hy
        · cases hy
        · exact this.2.2.2.2 n y hy
    · intro q
      simpa [isChild] using h9 q

theorem inv_exitEnd {s s' : St} (hi : Inv s) {p : Nat} (hs : exitEnd s p = some s') : Inv s' := by
  unfold exitEnd at hs
  split at hs
  · next x num hm =>
    -- forgetting the call
    have hforget : Inv { s with mid := put s.mid p none } := by
      obtain ⟨h1, h2, h3, h0, h4, h5, hz, h6, h7, h8, h9⟩ := hi
      have hmono : ∀ y, COk s y → COk { s with mid := put s.mid p none } y := fun y h =>
        h.mono (fun _ _ h => h) (Nat.le_refl _) (fun _ _ h => h) fun _ h => h
      constructor
      · intro n y hy
        have := h1 n y hy
        refine ⟨hmono _ this.1, this.2.1, this.2.2.1, ?_⟩
        simp only [put]
        split
        · rfl
        · exact this.2.2.2
      · intro p' m hm'
        simp only [put] at hm'
        split at hm'
        · cases hm'
        · exact ⟨hmono _ (h2 p' m hm').1, (h2 p' m hm').2⟩
      · intro p' y nw hm'
        simp only [put] at hm'
        split at hm'
        · cases hm'
        · exact h3 p' y nw hm'
      · exact h0
      · exact h4
      · exact h5
      · exact hz
      · exact h6
      · exact h7
      · intro tid sig q r h
        have := h8 _ _ _ _ h
        refine ⟨this.1, this.2.1, this.2.2.of (Nat.le_refl _) ?_ this.2.2.2.2⟩
        simp only [put]
        split
        · rfl
        · exact this.2.2.2.1
      · exact h9
    simp only [Option.some.injEq] at hs
    split at hs
    · subst hs; exact hforget
    · next hnum =>
      split at hs
      · subst hs; exact hforget
      · next y hy =>
        split at hs
        · subst hs; exact inv_abort hi
        · next hmain =>
          subst hs
          have hxm := hi.mid p _ hm
          simp only [Mid.cage] at hxm
          have hyc := hi.cage _ y hy
          have hyp : y.proc = x.pproc := by
            have h1 := hyc.2.1
            rw [hxm.1.par] at h1
            exact (Option.some.inj h1).symm
          have hgone : Gone s p → False := fun h => by have := h.2.1; rw [hm] at this; cases this
          have hnone : ∀ tid sig r, Ev.sent tid sig (.child p r) ∉ s.log := fun tid sig r h => hgone (hi.child _ _ _ _ h).2.2
          have h2p : 2 ≤ x.proc := by
            rcases Nat.lt_or_ge x.proc 2 with h | h
            · have h1 := hxm.1.first h
              have h2 := hyc.2.2.2
              rw [hyp, h1, hxm.2, hm] at h2
              cases h2
            · exact h
          obtain ⟨h1, h2, h3, h0, h4, h5, hz, h6, h7, h8, h9⟩ := hforget
          have hmono : ∀ z, COk { s with mid := put s.mid p none } z →
              COk { s with mid := put s.mid p none, log := s.log ++ [.sent y.main 17 (.child p x.pproc)] } z := fun z h =>
            h.mono (fun _ _ h => h) (Nat.le_refl _) (fun _ _ h => h) fun _ h => by simp [h]
          constructor
          · exact fun n z hz => ⟨hmono _ (h1 n z hz).1, (h1 n z hz).2⟩
          · exact fun q m hq => ⟨hmono _ (h2 q m hq).1, (h2 q m hq).2⟩
          · exact h3
          · exact h0
          · exact h4
          · exact h5
          · exact hz
          · exact h6
          · intro tid sig q h
            simp at h
            exact h7 _ _ _ h
          · intro tid sig q r h
            simp only [List.mem_append, List.mem_singleton, Ev.sent.injEq, Why.child.injEq] at h
            rcases h with h | ⟨rfl, rfl, rfl, rfl⟩
            · have := h8 _ _ _ _ h
              exact ⟨this.1, by simp [this.2.1], this.2.2.1, this.2.2.2⟩
            · refine ⟨?_, ?_, ?_, by simp [put], fun n z hz hzq => ?_⟩
              · have := hyc.1.own hmain
                rw [hyp] at this
                exact this
              · have := hxm.1.forked h2p
                rw [hxm.2] at this
                simp [this]
              · have := hxm.1.bound
                rw [hxm.2] at this
                exact this
              · have := (hi.cage n z hz).2.2.2
                rw [hzq, hm] at this
                cases this
          · intro q
            simp only [List.filter_append, List.length_append]
            by_cases hq : q = p
            · subst hq
              have hz : (s.log.filter (isChild q)).length = 0 := by
                rcases Nat.eq_zero_or_pos (s.log.filter (isChild q)).length with h | h
                · exact h
                · obtain ⟨tid, sig, r, hmem⟩ := filter_mem h
                  exact absurd hmem (hnone _ _ _)
              rw [hz]
              simp [isChild]
            · have := h9 q
              have hq' : (p == q) = false := by simpa using fun h => hq h.symm
              simpa [isChild, hq'] using this
  · cases hs

theorem inv_threadInit {s s' : St} (hi : Inv s) {c tid : Nat} (hs : threadInit s c tid = some s') : Inv s' := by
  unfold threadInit at hs
  split at hs
  · cases hs; exact inv_abort hi
  · next x hx =>
    split at hs
    · cases hs
    · next hcond =>
      cases hs
      obtain ⟨h1, h2, h3, h0, h4, h5, hz, h6, h7, h8, h9⟩ := hi
      have hcn := h1 c x hx
      have hown : ∀ t p, s.owner t = some p → put s.owner tid (some x.proc) t = some p := by
        intro t p h; simp only [put]; grind
      have hmono : ∀ y, COk s y → COk { s with
          cages := put s.cages c (some { x with main := tid, masks := tid :: x.masks.filter (· ≠ 0) })
          owner := put s.owner tid (some x.proc) } y := fun y h =>
        h.mono (fun _ _ h => h) (Nat.le_refl _) hown fun _ h => h
      constructor
      · intro n y hy
        simp only [put] at hy
        split at hy
        · next hn =>
          cases hy
          have hc := hmono _ hcn.1
          rw [hn]
          exact ⟨⟨hc.par, hc.bound, fun _ => by simp [put], hc.forked, hc.first⟩, hcn.2⟩
        · exact ⟨hmono _ (h1 n y hy).1, (h1 n y hy).2⟩
      · exact fun p m hm => ⟨hmono _ (h2 p m hm).1, (h2 p m hm).2⟩
      · intro p y nw hm
        have := h3 p y nw hm
        refine ⟨this.1, ?_⟩
        simp only [put]
        split
        · next he => rw [he, hx] at this; cases this.2
        · exact this.2
      · exact h0
      · exact h4
      · exact h5
      · exact hz
      · exact h6
      · exact fun t sig p h => hown _ _ (h7 _ _ _ h)
      · intro t sig q p h
        have := h8 _ _ _ _ h
        refine ⟨hown _ _ this.1, this.2.1, this.2.2.of (Nat.le_refl _) this.2.2.2.1 fun n y hy => ?_⟩
        simp only [put] at hy
        split at hy
        · cases hy; exact this.2.2.2.2 c x hx
        · exact this.2.2.2.2 n y hy
      · exact h9

theorem inv_setKill {s s' : St} (hi : Inv s) {c tid : Nat} (hc : ∀ x, s.cages c = some x → s.owner tid = some x.proc)
    (hs : setKill s c tid = some s') : Inv s' := by
  unfold setKill at hs
  split at hs
  · cases hs
  · split at hs
    · cases hs; exact inv_abort hi
    · next x hx =>
      split at hs
      · cases hs
        have ho := hc x hx
        obtain ⟨h1, h2, h3, h0, h4, h5, hz, h6, h7, h8, h9⟩ := hi
        have hcn := h1 c x hx
        have hmono : ∀ y, COk s y → COk { s with cages := put s.cages c (some { x with main := tid }) } y := fun y h =>
          h.mono (fun _ _ h => h) (Nat.le_refl _) (fun _ _ h => h) fun _ h => h
        constructor
        · intro n y hy
          simp only [put] at hy
          split at hy
          · next hn =>
            cases hy
            have hc := hmono _ hcn.1
            rw [hn]
            exact ⟨⟨hc.par, hc.bound, fun _ => ho, hc.forked, hc.first⟩, hcn.2⟩
          · exact ⟨hmono _ (h1 n y hy).1, (h1 n y hy).2⟩
        · exact fun p m hm => ⟨hmono _ (h2 p m hm).1, (h2 p m hm).2⟩
        · intro p y nw hm
          have := h3 p y nw hm
          refine ⟨this.1, ?_⟩
          simp only [put]
          split
          · next he => rw [he, hx] at this; cases this.2
          · exact this.2
        · exact h0
        · exact h4
        · exact h5
        · exact hz
        · exact h6
        · exact h7
        · intro t sig q p h
          have := h8 _ _ _ _ h
          refine ⟨this.1, this.2.1, this.2.2.of (Nat.le_refl _) this.2.2.2.1 fun n y hy => ?_⟩
          simp only [put] at hy
          split at hy
          · cases hy; exact this.2.2.2.2 c x hx
          · exact this.2.2.2.2 n y hy
        · exact h9
      · cases hs; exact hi

/-- Timers change and something is logged that is no SIGCHLD. -/
theorem inv_tmrs {s : St} (hi : Inv s) {p : Nat} {t : Tmr} {es : List Ev} (hcage : t.cage = (s.tmrs p).cage)
    (hidle : s.procs ≤ p → t.tickers = 0) (htick : t.on = true → t.bad = false → 0 < t.tickers)
    (hes : ∀ e ∈ es, (∀ tid sig q r, e ≠ .sent tid sig (.child q r)) ∧ ∀ tid sig q, e = .sent tid sig (.alarm q) → s.owner tid = some q) :
    Inv { s with tmrs := put s.tmrs p t, log := s.log ++ es } := by
  obtain ⟨h1, h2, h3, h0, h4, h5, hz, h6, h7, h8, h9⟩ := hi
  have hmono : ∀ y, COk s y → COk { s with tmrs := put s.tmrs p t, log := s.log ++ es } y := fun y h =>
    h.mono (fun _ _ h => h) (Nat.le_refl _) (fun _ _ h => h) fun _ h => by simp [h]
  have hcg : ∀ q, (put s.tmrs p t q).cage = (s.tmrs q).cage := by
    intro q; simp only [put]; split
    · next h => rw [h]; exact hcage
    · rfl
  constructor
  · exact fun n y hy => ⟨hmono _ (h1 n y hy).1, (h1 n y hy).2.1, (hcg _).trans (h1 n y hy).2.2.1, (h1 n y hy).2.2.2⟩
  · exact fun q m hm => ⟨hmono _ (h2 q m hm).1, (h2 q m hm).2⟩
  · exact h3
  · exact h0
  · intro q hq
    simp only [hcg]
    exact h4 q hq
  · exact h5
  · intro q hq
    simp only [put]
    split
    · next h => rw [h] at hq; exact hidle hq
    · exact hz q hq
  · intro q
    simp only [put]
    split
    · exact htick
    · exact h6 q
  · intro tid sig q h
    rcases List.mem_append.mp h with h | h
    · exact h7 _ _ _ h
    · exact (hes _ h).2 _ _ _ rfl
  · intro tid sig q r h
    rcases List.mem_append.mp h with h | h
    · have := h8 _ _ _ _ h
      exact ⟨this.1, by simp [this.2.1], this.2.2⟩
    · exact absurd rfl ((hes _ h).1 tid sig q r)
  · intro q
    have : es.filter (isChild q) = [] := by
      rw [List.filter_eq_nil_iff]
      intro e he hc
      match e, hc, he with
      | .sent tid sig (.child q' r), _, he => exact absurd rfl ((hes _ he).1 tid sig q' r)
    simpa [List.filter_append, this] using h9 q

theorem put_self {α : Type} (f : Nat → α) (i : Nat) : put f i (f i) = f := by
  funext j; simp only [put]; split
  · next h => rw [h]
  · rfl

theorem inv_kill {s : St} (hi : Inv s) {num sig : Nat} : Inv (kill s num sig) := by
  unfold kill
  split
  · exact hi
  · split
    · exact hi
    · next y hy =>
      have := inv_tmrs hi (p := 0) (t := s.tmrs 0) (es := [.sent y.main sig (.kill num)]) rfl (hi.idle 0) (hi.tickers 0) (by simp)
      rwa [put_self] at this

theorem inv_setTimer {s : St} (hi : Inv s) {c : Nat} {on again : Bool} : Inv (setTimer s c on again) := by
  unfold setTimer
  split
  · exact inv_abort hi
  · next x hx =>
    split
    · exact inv_abort hi
    · next hb =>
      have ht := hi.tickers x.proc
      have := inv_tmrs hi (p := x.proc) (t := (s.tmrs x.proc).set on again) (es := []) (by unfold Tmr.set; split <;> rfl)
        (fun h => absurd (hi.cage c x hx).1.bound (Nat.not_lt.mpr h)) (by unfold Tmr.set; grind) (by simp)
      simpa using this

theorem inv_tick {s s' : St} (hi : Inv s) {p : Nat} {up : Bool} (hs : tick s p up = some s') : Inv s' := by
  unfold tick at hs
  have ht := hi.tickers p
  dsimp only at hs
  split at hs
  · cases hs
  · next hk =>
    have hp : p < s.procs := Nat.lt_of_not_le fun h => hk (hi.idle p h)
    have hid : ∀ t : Tmr, s.procs ≤ p → t.tickers = 0 := fun _ h => absurd hp (Nat.not_lt.mpr h)
    split at hs
    · next hcond =>
      cases hs
      have := inv_tmrs hi (p := p) (t := { s.tmrs p with tickers := (s.tmrs p).tickers - 1 }) (es := []) rfl
        (hid _) (by simp only; intro h1 h2; rcases hcond with h | h <;> grind) (by simp)
      simpa using this
    · split at hs
      · cases hs; exact hi
      · have hset : ∀ b, ((s.tmrs p).set b b).on = true → ((s.tmrs p).set b b).bad = false → 0 < ((s.tmrs p).set b b).tickers := by
          intro b; unfold Tmr.set; grind
        split at hs
        · cases hs
          have := inv_tmrs hi (p := p) (t := (s.tmrs p).set (s.tmrs p).again (s.tmrs p).again) (es := [])
            (by unfold Tmr.set; split <;> rfl) (hid _) (hset _) (by simp)
          simpa using this
        · next y hy =>
          split at hs
          · cases hs
            exact inv_tmrs hi (p := p) (t := { s.tmrs p with bad := true, tickers := (s.tmrs p).tickers - 1 }) (es := [.tickerDied p]) rfl
              (hid _) (by simp) (by simp)
          · next hm =>
            cases hs
            have hyc := hi.cage _ y hy
            refine inv_tmrs hi (p := p) (t := (s.tmrs p).set (s.tmrs p).again (s.tmrs p).again)
              (es := [.sent y.main 14 (.alarm p)]) (by unfold Tmr.set; split <;> rfl) (hid _) (hset _) ?_
            simp only [List.mem_singleton, forall_eq, Ev.sent.injEq, Why.alarm.injEq]
            refine ⟨by simp, ?_⟩
            rintro tid sig q ⟨rfl, rfl, rfl⟩
            have h1 := hi.tmr p hp
            rw [hyc.2.1] at h1
            rw [← Option.some.inj h1]
            exact hyc.1.own hm

theorem inv_step {s s' : St} (hi : Inv s) {a : Act} (hc : Careful s a) (hs : step s a = some s') : Inv s' := by
  unfold step at hs
  split at hs
  · cases hs
  · cases a <;> simp only [Option.some.injEq] at hs
    · subst hs; exact inv_fork hi hc
    · subst hs; exact inv_execBegin hi hc
    · exact inv_execEnd hi hs
    · subst hs; exact inv_exitBegin hi
    · exact inv_exitEnd hi hs
    · exact inv_threadInit hi hs
    · exact inv_setKill hi hc hs
    · subst hs; exact inv_kill hi
    · subst hs; exact inv_setTimer hi
    · exact inv_tick hi hs
    · subst hs; unfold call; split
      · exact inv_abort hi
      · exact hi

theorem inv_run {l : List Act} : ∀ {s : St}, Inv s → CarefulRun s l → Inv (runFrom s l) := by
  induction l with
  | nil => exact fun hi _ => hi
  | cons a l ih =>
    intro s hi hc
    refine ih ?_ hc.2
    cases hs : step s a with
    | none => exact hi
    | some s' => exact inv_step hi hc.1 hs

end Verif.Life
