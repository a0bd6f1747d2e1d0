import Verif.Confine
import Verif.ConfineLemmas
import Verif.HistProps

/-! # Pipes and open files are confined to those who made or inherited them (property C107) -/

namespace Verif.Confine
open Verif.Kernel Verif.Fs Verif.Path

theorem has_of_same {s : State} {k fd0 : Nat} {d d' : Desc} (h0 : slot s k fd0 = some d) (hs : SameObject d d')
    (o : Obj) (ho : (∃ i pos f, o = .file i ∧ d' = .file i pos f) ∨ ∃ id f, o = .pipe id ∧ d' = .pipe id f) :
    Has s k o := by
  rcases ho with ⟨i, pos, f, rfl, rfl⟩ | ⟨id, f, rfl, rfl⟩
  · cases d <;> simp only [SameObject] at hs
    obtain ⟨rfl, -⟩ := hs; exact ⟨fd0, _, _, h0⟩
  · cases d <;> simp only [SameObject] at hs
    obtain ⟨rfl, -⟩ := hs; exact ⟨fd0, _, h0⟩

theorem has_iff {s : State} {k : Nat} {o : Obj} : Has s k o ↔ ∃ fd d', slot s k fd = some d' ∧
    ((∃ i pos f, o = .file i ∧ d' = .file i pos f) ∨ ∃ id f, o = .pipe id ∧ d' = .pipe id f) := by
  cases o with
  | file i =>
    constructor
    · rintro ⟨fd, pos, f, h⟩; exact ⟨fd, _, h, .inl ⟨i, pos, f, rfl, rfl⟩⟩
    · rintro ⟨fd, d', h, ⟨j, pos, f, h1, rfl⟩ | ⟨id, f, h1, -⟩⟩
      · cases h1; exact ⟨fd, pos, f, h⟩
      · cases h1
  | pipe id =>
    constructor
    · rintro ⟨fd, f, h⟩; exact ⟨fd, _, h, .inr ⟨id, f, rfl, rfl⟩⟩
    · rintro ⟨fd, d', h, ⟨j, pos, f, h1, -⟩ | ⟨id', f, h1, rfl⟩⟩
      · cases h1
      · cases h1; exact ⟨fd, f, h⟩

/-- The child's descriptors after a fork that went well: the parent's, and standard streams. -/
theorem fork_has {s : State} {c ch : Nat} {cg : Cage} (hc : s.cages c = some cg) (hp : (step s c (.fork ch)).2.ret ≠ .panic) {o : Obj}
    (h : Has (step s c (.fork ch)).1 ch o) : Has s c o := by
  obtain ⟨fd, d', hd, ho⟩ := has_iff.1 h
  refine has_iff.2 ⟨fd, d', ?_, ho⟩
  simp only [step, hc, fork] at hd hp
  rw [slot_eq hc]
  by_cases hlt : ch ≥ maxCage
  · simp [hlt, Out.r] at hp
  rw [if_neg hlt] at hd hp
  cases e1 : forkCopy cg.fds ch maxFd (s.setCage ch (some { fds := initTable, cwd := cg.cwd, parent := c })) with
  | none => rw [e1] at hp; exact absurd rfl hp
  | some s1 => ?_
  rw [e1] at hd hp
  have hsl : ∀ s2 : State, s2.cages = s1.cages → slot s2 ch fd = some d' → cg.fds fd = some d' := by
    intro s2 e2 h2
    have h3 : slot s1 ch fd = some d' := by simpa only [slot, e2] using h2
    rcases forkCopy_slots _ _ _ _ _ e1 fd d' h3 with h4 | h4
    · simp only [slot, State.setCage, upd_apply, if_true] at h4
      exfalso
      rcases ho with ⟨i, pos, f, -, rfl⟩ | ⟨id, f, -, rfl⟩
      all_goals
        simp only [initTable] at h4
        split at h4 <;> cases h4
    · exact h4
  simp only at hd hp
  rcases hw : s.fs.walk (names cg.cwd) with _ | ⟨_ | i, x⟩
  · rw [hw] at hp; exact absurd rfl hp
  · rw [hw] at hp; exact absurd rfl hp
  · rw [hw] at hp hd
    simp only at hp hd
    cases hi : s1.fs.inodes i with
    | none => rw [hi] at hp; exact absurd rfl hp
    | some nd =>
      rw [hi] at hp hd
      simp only at hp hd
      by_cases hdir : nd.isDir = true
      · rw [if_pos hdir] at hd; exact hsl _ rfl hd
      · rw [if_neg hdir] at hp; exact absurd rfl hp

/-- The new program's descriptors after an exec that went well: the caller's. -/
theorem exec_has {s : State} {c ch : Nat} {cg : Cage} (hc : s.cages c = some cg) (hp : (step s c (.exec ch)).2.ret ≠ .panic) {o : Obj} :
    (Has (step s c (.exec ch)).1 ch o → Has s c o) ∧ (ch ≠ c → ¬ Has (step s c (.exec ch)).1 c o) := by
  have hO := Old.closeWhere (fun d => d.flags &&& oCLOEXEC != 0) c maxFd s
  simp only [step, hc, exec] at hp ⊢
  split at hp
  · simp [Out.r] at hp
  rename_i hlt
  rw [if_neg hlt]
  generalize closeWhere (fun d => d.flags &&& oCLOEXEC != 0) c maxFd s = X at hO hp ⊢
  obtain ⟨s', r⟩ := X
  cases r with
  | panic => simp [Out.r] at hp
  | _ =>
    simp only at hp ⊢ hO
    cases hcg : s'.cages c with
    | none => rw [hcg] at hp; simp [Out.r] at hp
    | some cg' =>
      simp only
      constructor
      · intro h
        obtain ⟨fd, d', hd, ho⟩ := has_iff.1 h
        simp only [slot, State.setCage, upd_apply, if_true] at hd
        obtain ⟨fd0, d, h0, hs⟩ := hO fd d' (by rw [slot_eq hcg]; exact hd)
        exact has_of_same h0 hs o ho
      · intro hne h
        obtain ⟨fd, d', hd, -⟩ := has_iff.1 h
        simp [slot, State.setCage, upd_apply, Ne.symm hne] at hd

theorem exit_has {s : State} {c : Nat} {cg : Cage} (hc : s.cages c = some cg) {st : Int} (hp : (step s c (.exit st)).2.ret ≠ .panic) {o : Obj} :
    ¬ Has (step s c (.exit st)).1 c o := by
  intro h
  obtain ⟨fd, d', hd, -⟩ := has_iff.1 h
  have e : step s c (.exit st) = Kernel.exit s c st := by simp only [step, hc]
  rw [e] at hp hd
  unfold Kernel.exit at hp hd
  rcases hX : closeWhere (fun _ => true) c maxFd s with ⟨s', r⟩
  rw [hX] at hp hd
  cases r with
  | panic => exact absurd rfl hp
  | _ => simp [slot, State.setCage] at hd

theorem fork_panic {s : State} {c ch : Nat} (hp : (step s c (.fork ch)).2.ret = .panic) : (step s c (.fork ch)).1 = s := by
  cases hc : s.cages c with
  | none => simp only [step, hc]
  | some cg =>
    simp only [step, hc, fork] at hp ⊢
    by_cases hlt : ch ≥ maxCage
    · rw [if_pos hlt]
    rw [if_neg hlt] at hp ⊢
    cases e1 : forkCopy cg.fds ch maxFd (s.setCage ch (some { fds := initTable, cwd := cg.cwd, parent := c })) with
    | none => rfl
    | some s1 =>
      rw [e1] at hp
      rcases hw : s.fs.walk (names cg.cwd) with _ | ⟨_ | i, x⟩
      · rfl
      · rfl
      · rw [hw] at hp
        simp only at hp ⊢
        cases hi : s1.fs.inodes i with
        | none => rfl
        | some nd =>
          rw [hi] at hp
          simp only at hp ⊢
          by_cases hdir : nd.isDir = true
          · rw [if_pos hdir] at hp; cases hp
          · rw [if_neg hdir]

theorem exec_panic {s : State} {c k : Nat} (hk : k ≠ c) (hp : (step s c (.exec k)).2.ret = .panic) :
    (step s c (.exec k)).1.cages k = s.cages k := by
  have := closeWhere_frame (fun d => d.flags &&& oCLOEXEC != 0) hk maxFd s
  cases hc : s.cages c with
  | none => simp only [step, hc]
  | some cg =>
    have e : step s c (.exec k) = Kernel.exec s c cg k := by simp only [step, hc]
    rw [e] at hp ⊢
    unfold Kernel.exec at hp ⊢
    by_cases hlt : k ≥ maxCage
    · rw [if_pos hlt]
    rw [if_neg hlt] at hp ⊢
    rcases hX : closeWhere (fun d => d.flags &&& oCLOEXEC != 0) c maxFd s with ⟨s', r⟩
    rw [hX] at hp this
    cases r with
    | panic => exact this
    | _ =>
      simp only at hp this ⊢
      cases hcg : s'.cages c with
      | none => exact this
      | some cg' => rw [hcg] at hp; cases hp

/-- One call: whoever has a descriptor afterwards is entitled, if everybody who had one before was. -/
theorem heirs_has {o : Obj} {s : State} {E : Nat → Prop} (hE : ∀ k, Has s k o → E k) (c : Nat) (op : Op) :
    ∀ k, Has (step s c op).1 k o → heirs o s c op E k := by
  intro k hk
  cases hc : s.cages c with
  | none =>
    have e : step s c op = (s, .r .panic) := by simp only [step, hc]
    simp only [heirs, e, Out.r, if_true]; rw [e] at hk; exact hE k hk
  | some cg => ?_
  -- the caller itself, unless it forks onto its own number
  have own : op ≠ .fork c → Has (step s c op).1 c o → Has s c o ∨ Makes s c op o := by
    intro hnf h
    obtain ⟨fd, d', hd, ho⟩ := has_iff.1 h
    rcases own_origin hd with ⟨fd0, d, h0, hs⟩ | hm | hf
    · left; exact has_of_same h0 hs o ho
    · right
      rcases ho with ⟨i, pos, f, rfl, rfl⟩ | ⟨id, f, rfl, rfl⟩
      · cases op <;> simp only [Made] at hm
        exact ⟨⟨_, _, _, rfl⟩, fd, hm, pos, f, hd⟩
      · cases op <;> simp only [Made] at hm
        rename_i fl
        exact ⟨⟨fl, rfl⟩, hm.1, by rw [hm.1]; exact hm.2.1⟩
    · exact absurd hf hnf
  have oth : k ≠ c → op ≠ .fork k → op ≠ .exec k → E k := by
    intro h1 h2 h3
    obtain ⟨fd, d', hd, ho⟩ := has_iff.1 hk
    apply hE
    refine has_iff.2 ⟨fd, d', ?_, ho⟩
    simpa only [slot, cage_isolation h1 h2 h3] using hd
  by_cases hp : (step s c op).2.ret = .panic
  · simp only [heirs, hp, if_true]
    by_cases hf : op = .fork k
    · subst hf
      rw [fork_panic hp] at hk; exact hE k hk
    by_cases hkc : k = c
    · subst hkc
      rcases own hf hk with h | h
      · exact hE _ h
      · exfalso
        cases o with
        | file i => obtain ⟨-, v, hv, -⟩ := h; rw [hp] at hv; cases hv
        | pipe id =>
          obtain ⟨⟨fl, rfl⟩, -⟩ := h
          simp only [step, hc, pipe2] at hp
          (repeat' split at hp) <;> cases hp
    · by_cases he : op = .exec k
      · subst he
        obtain ⟨fd, d', hd, ho⟩ := has_iff.1 hk
        refine hE k (has_iff.2 ⟨fd, d', ?_, ho⟩)
        simpa only [slot, exec_panic hkc hp] using hd
      · exact oth hkc hf he
  · simp only [heirs, hp, if_false]
    have gen : (∀ ch, op ≠ .fork ch) → (∀ ch, op ≠ .exec ch) → E k ∨ (k = c ∧ Makes s c op o) := by
      intro h1 h2
      by_cases hkc : k = c
      · subst hkc
        rcases own (h1 _) hk with h | h
        · exact .inl (hE _ h)
        · exact .inr ⟨rfl, h⟩
      · exact .inl (oth hkc (h1 _) (h2 _))
    cases op
    case fork ch =>
      simp only
      split
      · rename_i e; subst e; exact hE _ (fork_has hc hp hk)
      · rename_i hne
        by_cases hkc : k = c
        · subst hkc
          rcases own (by intro e; cases e; exact hne rfl) hk with h | h
          · exact hE _ h
          · cases o <;> simp [Makes] at h
        · exact oth hkc (by intro e; cases e; exact hne rfl) (by simp)
    case exec ch =>
      simp only
      split
      · rename_i e; subst e; exact hE _ ((exec_has hc hp).1 hk)
      · rename_i hne
        have hkc : k ≠ c := by
          rintro rfl; exact (exec_has hc hp).2 (Ne.symm hne) hk
        exact ⟨hkc, oth hkc (by simp) (by intro e; cases e; exact hne rfl)⟩
    case exit st =>
      have hkc : k ≠ c := by rintro rfl; exact exit_has hc hp hk
      exact ⟨hkc, oth hkc (by simp) (by simp)⟩
    all_goals exact gen (by simp) (by simp)

/-- C107.  From any state in which everybody who has a descriptor for the object is entitled, through any history of calls, aborted ones
included: whoever has a descriptor for it at the end made it or inherited it. -/
theorem confined {o : Obj} (h : List (Nat × Op)) : ∀ {s : State} {E : Nat → Prop}, (∀ k, Has s k o → E k) →
    ∀ k, Has (run s h) k o → entitled o s h E k := by
  induction h with
  | nil => intro s E hE k hk; exact hE k hk
  | cons x h ih =>
    obtain ⟨c, op⟩ := x
    intro s E hE k hk
    exact ih (heirs_has hE c op) k hk

/-- C107.  In the whole life of the system, from the start on, at which nobody is entitled to anything. -/
theorem confined_init {o : Obj} (h : List (Nat × Op)) (k : Nat) (hk : Has (run init h) k o) :
    entitled o init h (fun _ => False) k := by
  refine confined h ?_ k hk
  intro k h
  obtain ⟨fd, d', hd, ho⟩ := has_iff.1 h
  have hcg : ∀ k, init.cages k = if k = 0 then some { fds := initTable, cwd := [slash], parent := 0 }
      else if k = 1 then some { fds := initTable, cwd := [slash], parent := 1 } else none := fun _ => rfl
  have ht : initTable fd = some d' := by
    simp only [slot, hcg] at hd
    by_cases h0 : k = 0
    · simpa [h0] using hd
    · by_cases h1 : k = 1
      · simpa [h1] using hd
      · simp [h0, h1] at hd
  rcases ho with ⟨i, pos, f, -, rfl⟩ | ⟨id, f, -, rfl⟩
  all_goals
    simp only [initTable] at ht
    split at ht <;> cases ht

theorem cageW_zero {s : State} {k id : Nat} (h : ¬ Has s k (.pipe id)) (e : Verif.Pipe.End) : cageW (.pend id e) (s.cages k) = 0 := by
  cases hc : s.cages k with
  | none => rfl
  | some cg =>
    simp only [cageW, tableW]
    apply sumTo_zero
    intro fd _
    cases hd : cg.fds fd with
    | none => rfl
    | some d =>
      cases d <;> simp only [slotW, weight]
      rename_i id' f
      split
      · rename_i h1
        exfalso; apply h
        obtain ⟨rfl, -⟩ := h1
        exact ⟨fd, f, by rw [slot_eq hc]; exact hd⟩
      · rfl

theorem cagesW_congr {r : Res} {a b : Nat → Option Cage} (h : ∀ k, cageW r (a k) = cageW r (b k)) : cagesW r a = cagesW r b := by
  simp only [cagesW, h]

/-- C107.  A call of a cage that has no descriptor for a pipe leaves the pipe exactly as it is: it takes no byte out and puts none in, and changes
neither the number of read ends nor that of write ends, so that nobody sees an end of file or a broken pipe on its account. -/
theorem stranger_partial {s : State} (hR : Reach s) {c : Nat} {op : Op} (ht : Tame s c op) (hp : (step s c op).2.ret ≠ .panic) {id : Nat}
    {p : Verif.Pipe.Pipe} (hpp : s.pipes id = some p) (hn : ¬ Has s c (.pipe id)) : (step s c op).1.pipes id = some p := by
  have hF : Fresh s := by
    intro j hj
    cases e : s.pipes j with
    | none => rfl
    | some q => have := (hR.inv.pex j).1 (by simp [e]); omega
  have hid : id < s.npipe := (hR.inv.pex id).1 (by simp [hpp])
  obtain ⟨-, t, g, p', hT, hG, hp', hcap, hbuf⟩ := step_moves hF c op id p hpp
  have no : ∀ fd, ¬ OnPipe s c fd id := by
    rintro fd ⟨cg, f, hc, hd⟩
    exact hn ⟨fd.toNat, f, slot_getFd hc hd⟩
  have ht0 : t = [] := by
    cases op <;> simp only [Takes] at hT
    case read fd n =>
      rcases hT with ⟨h1, -⟩ | ⟨-, h1⟩
      · exact absurd h1 (no _)
      · exact h1
    all_goals exact hT
  have hg0 : g = [] := by
    cases op <;> simp only [Gives] at hG
    case write fd n =>
      rcases hG with ⟨h1, -⟩ | ⟨-, h1⟩
      · exact absurd h1 (no _)
      · exact h1
    case writev fd n =>
      rcases hG with ⟨h1, -⟩ | ⟨-, h1⟩
      · exact absurd h1 (no _)
      · exact h1
    all_goals exact hG
  subst ht0; subst hg0
  have hR' : Reach (step s c op).1 := .step c op hR ht hp
  -- nobody gains or loses an end
  have hall : ∀ e k, cageW (.pend id e) ((step s c op).1.cages k) = cageW (.pend id e) (s.cages k) := by
    intro e k
    have hE : ∀ j, Has s j (.pipe id) → (fun j => j ≠ c) j := by rintro j hj rfl; exact hn hj
    by_cases hs : k ≠ c ∧ op ≠ .fork k ∧ op ≠ .exec k
    · rw [cage_isolation hs.1 hs.2.1 hs.2.2]
    · have hkn : ¬ Has s k (.pipe id) := by
        by_cases hkc : k = c
        · rw [hkc]; exact hn
        · intro hk
          obtain ⟨fd, f, hk⟩ := hk
          cases hc : s.cages c with
          | none => simp [step, hc, Out.r] at hp
          | some cg =>
            have hkk : s.cages k = none := by
              by_cases h1 : op = .fork k
              · subst h1; simpa only [Tame, hc] using ht
              · have h2 : op = .exec k := by
                  by_cases h2 : op = .exec k
                  · exact h2
                  · exact absurd ⟨hkc, h1, h2⟩ hs
                subst h2
                have := ht; simp only [Tame, hc] at this
                exact this.resolve_left hkc
            rw [slot_none hkk] at hk; cases hk
      have hkn' : ¬ Has (step s c op).1 k (.pipe id) := by
        intro hk
        have hh := heirs_has (o := .pipe id) (E := fun j => Has s j (.pipe id)) (fun _ h => h) c op k hk
        simp only [heirs, hp, if_false] at hh
        have hM : ¬ Makes s c op (.pipe id) := by rintro ⟨-, h1, -⟩; omega
        cases op <;> simp only at hh
        case fork ch =>
          split at hh
          · exact hn hh
          · exact hkn hh
        case exec ch =>
          split at hh
          · exact hn hh
          · exact hkn hh.2
        case exit st => exact hkn hh.2
        all_goals
          rcases hh with hh | ⟨-, hh⟩
          · exact hkn hh
          · exact hM hh
      rw [cageW_zero hkn e, cageW_zero hkn' e]
  have hw : ∀ e, tot (step s c op).1 [] (.pend id e) = tot s [] (.pend id e) := by
    intro e
    simp only [tot, cagesW_congr (hall e)]
  have a := hR.inv.pipe id p hpp
  have b := hR'.inv.pipe id p' hp'
  rw [hp']
  obtain ⟨pb, pc, pw, pr⟩ := p
  obtain ⟨qb, qc, qw, qr⟩ := p'
  simp only [hw, List.nil_append, List.append_nil] at a b hbuf hcap
  simp only [Option.some.injEq, Verif.Pipe.Pipe.mk.injEq]
  exact ⟨hbuf, hcap, by rw [b.2, a.2], by rw [b.1, a.1]⟩

/-- C107.  The same in terms of histories: after any history of calls, a call of a cage that neither made the pipe nor inherited it
leaves the pipe exactly as it is. -/
theorem outsider_partial {h : List (Nat × Op)} (hh : Calm init h) {c : Nat} {op : Op} (ht : Tame (run init h) c op)
    (hp : (step (run init h) c op).2.ret ≠ .panic) {id : Nat} {p : Verif.Pipe.Pipe} (hpp : (run init h).pipes id = some p)
    (hn : ¬ entitled (.pipe id) init h (fun _ => False) c) : (step (run init h) c op).1.pipes id = some p :=
  stranger_partial (Calm.reach .init hh) ht hp hpp fun hx => hn (confined_init h c hx)

/-- A story: cage 0 makes a pipe and forks 2, which exits; cage 1 then forks another cage under the number 2.  Cage 0 writes a byte. -/
def story : List (Nat × Op) :=
  [(0, .pipe2 0#32), (0, .fork 2), (2, .exit 0), (1, .fork 2), (0, .write 4 [7])]

/-- The hypotheses of the theorems are met. -/
theorem story_calm : Calm init story := runB_calm (by decide +kernel)

/-- Cage 1 and the later cage 2 are not entitled. -/
theorem story_strangers {s : State} (hc : Calm s story) : ¬ entitled (.pipe 0) s story (fun _ => False) 1 ∧
    ¬ entitled (.pipe 0) s story (fun _ => False) 2 := by
  unfold story at hc
  cases hc with | cons _ h1 hc => ?_
  cases hc with | cons _ h2 hc => ?_
  cases hc with | cons _ h3 hc => ?_
  cases hc with | cons _ h4 hc => ?_
  cases hc with | cons _ h5 hc => ?_
  constructor <;> simp [story, entitled, heirs, h1, h2, h3, h4, h5, Makes]

/-- The maker is entitled. -/
theorem story_maker : entitled (.pipe 0) init story (fun _ => False) 0 := by
  have h : slot (run init story) 0 3 = some (.pipe 0 0#32) := by decide +kernel
  generalize hs : story = l at h ⊢
  exact confined_init (o := .pipe 0) l 0 ⟨3, 0#32, h⟩

/-- Its child was while it lived. -/
theorem story_child : entitled (.pipe 0) init (story.take 2) (fun _ => False) 2 := by
  have h : slot (run init (story.take 2)) 2 3 = some (.pipe 0 0#32) := by decide +kernel
  generalize hs : story.take 2 = l at h ⊢
  exact confined_init (o := .pipe 0) l 2 ⟨3, 0#32, h⟩

/-- The byte is in the pipe, and the later cage 2 does not get it. -/
example : ((run init story).pipes 0).map (·.buf) = some [7] ∧ (step (run init story) 2 (.read 3 1)).2.ret = .err .EBADF := by
  decide +kernel

end Verif.Confine
