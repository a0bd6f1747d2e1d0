import Verif.Ident
import Verif.FdProps

/-!
# C70, C71: who a process is; which thread a cancellation ends
-/

namespace Verif.Ident
open Verif.Path Verif.Fs Verif.Kernel

/-! ## Specification -/

/-- The call `x` of cage `c` leaves process `k` the process it is: it does not end it, replace its program, or make a new process of
its number. -/
def Spares (k : Nat) (c : Nat) : Call → Prop
  | .sys (.fork ch) => ch ≠ k
  | .sys (.exec ch) => ch ≠ k ∧ c ≠ k
  | .sys (.exit _) => c ≠ k
  | _ => True

/-- Answer of a call. -/
def answer (S : Sys) (c : Nat) (x : Call) : Ret := (call S c x).2

/-! ## Lemmas -/

/-- The parent of a cage. -/
def par (s : State) (k : Nat) : Option Nat := (s.cages k).map Cage.parent

theorem setFd_par (s : State) (c fd : Nat) (o : Option Desc) (k : Nat) : par (s.setFd c fd o) k = par s k := by
  unfold par State.setFd State.setCage
  cases hc : s.cages c with
  | none => rfl
  | some cg =>
    simp only [upd_apply]
    split
    · rename_i e; subst e; rw [hc]; rfl
    · rfl

theorem par_cages {s s' : State} (h : s'.cages = s.cages) (k : Nat) : par s' k = par s k := by unfold par; rw [h]

theorem closeSlot_par (s : State) (c fd : Nat) (o : Option Desc) (k : Nat) : par (s.closeSlot c fd o).1 k = par s k := by
  simp only [State.closeSlot]
  split
  · rfl
  · rename_i d
    have hd := drop_cages s d
    split
    · rename_i s' v e
      rw [e] at hd
      rw [setFd_par]; exact par_cages hd k
    · rename_i s' r e
      rw [e] at hd; exact par_cages hd k

theorem putCopy_par (s : State) (c : Nat) (d : Desc) (n k : Nat) : par (s.putCopy c d n).1 k = par s k := by
  simp only [State.putCopy]
  split
  · rfl
  · rename_i s1 e
    rw [setFd_par]; exact par_cages (bump_same e).cages k

theorem dupFrom_par (s : State) (c : Nat) (cg : Cage) (d : Desc) (n k : Nat) : par (dupFrom s c cg d n).1 k = par s k := by
  simp only [dupFrom]
  split
  · rfl
  · split
    · rfl
    · exact putCopy_par _ _ _ _ _

/-- No call but `fork` and `exec` for a number, and `exec` and `exit` of its own, changes the parent of a process. -/
theorem step_par (s : State) (c k : Nat) (op : Op) (h : Spares k c (.sys op)) : par (step s c op).1 k = par s k := by
  by_cases hk : k = c
  · subst hk
    cases hc : s.cages k with
    | none => simp only [step, hc]
    | some cg =>
      cases op <;> simp only [step, hc]
      case fork ch =>
        have hch : k ≠ ch := fun e => h e.symm
        have p1 : ∀ s' : State, s'.cages k = s.cages k → par s' k = par s k := fun s' e => by unfold par; rw [e]
        unfold fork
        split
        · rfl
        · split
          · rfl
          · rename_i s1 e1
            have := forkCopy_frame _ hch _ _ _ e1
            simp only [State.setCage, upd_ne _ _ hch] at this
            (repeat' split) <;> first | rfl | exact p1 _ this
      case exec ch => exact absurd rfl h.2
      case exit st => exact absurd rfl h
      case dup2 o n =>
        unfold dup2
        split
        · rfl
        split
        · rfl
        split
        · rfl
        · rfl
        · have hz : ∀ dn, par (s.drop dn).1 k = par s k := fun dn => par_cages (drop_cages s dn) k
          cases cg.fds n.toNat with
          | none =>
            simp only [reduceCtorEq, if_false]
            split
            · rfl
            · exact putCopy_par _ _ _ _ _
          | some dn =>
            simp only
            split
            · exact hz dn
            · split
              · exact hz dn
              · rw [putCopy_par]; exact hz dn
      all_goals
        (try simp only [nonEmpty, State.onFs, fchmod, ftruncate, openSys, chdir, fchdir, Kernel.read, pread, write,
          pwrite, writev, lseek, getdents, dup, fcntl, pipe2, putNew, close])
      all_goals
        (repeat' split) <;> try simp only [setFd_par, closeSlot_par, dupFrom_par]
      all_goals first | rfl | simp only [par, State.setCage, upd_same, hc, Option.map_some]
  · have := cage_isolation (s := s) (c := c) (k := k) (op := op) hk
      (by rintro rfl; exact h rfl) (by rintro rfl; exact h.1 rfl)
    unfold par; rw [this]

theorem call_k (S : Sys) (c : Nat) (x : Call) : (call S c x).1.k = match x with | .sys op => (step S.k c op).1 | _ => S.k := by
  unfold call
  cases hc : S.k.cages c with
  | none => cases x <;> simp only [step, hc]
  | some cg => cases x <;> rfl

theorem call_par (S : Sys) (c k : Nat) (x : Call) (h : Spares k c x) : par (call S c x).1.k k = par S.k k := by
  rw [call_k]
  cases x with
  | sys op => exact step_par _ _ _ _ h
  | _ => rfl

theorem run_par (k : Nat) : ∀ (H : List (Nat × Call)) (S : Sys), (∀ e ∈ H, Spares k e.1 e.2) → par (run S H).k k = par S.k k
  | [], _, _ => rfl
  | (c, x) :: H, S, h => by
    have e1 := run_par k H (call S c x).1 (fun e he => h e (List.mem_cons_of_mem _ he))
    have e2 := call_par S c k x (h (c, x) List.mem_cons_self)
    rw [run, e1, e2]

theorem toI32_small {n : Nat} (h : n < 1024) : toI32 (n : Int) = n := by
  unfold toI32
  rw [BitVec.toInt_ofInt, Int.bmod_eq_of_le] <;> omega

theorem answer_ppid {S : Sys} {k p : Nat} (h : par S.k k = some p) (hp : p < 1024) : answer S k .getppid = .ok p := by
  unfold par at h
  cases hc : S.k.cages k with
  | none => rw [hc] at h; cases h
  | some cg =>
    rw [hc] at h
    simp only [Option.map_some, Option.some.injEq] at h
    simp only [answer, call, hc, h, toI32_small hp]

/-! ## C70 -/

/-- C70.  A process is told its own number, and so two living processes are told different ones. -/
theorem pid_own {S : Sys} (h : Reach S.k) {c : Nat} (hc : S.k.cages c ≠ none) : answer S c .getpid = .ok c := by
  cases e : S.k.cages c with
  | none => exact absurd e hc
  | some cg =>
    have := (h.inv.cage c cg e).1
    simp only [answer, call, e, toI32_small this]

/-- C70.  A new process is told the number of the process that forked it, then and after any further calls of any processes, as long
as it lives and runs the same program. -/
theorem ppid_forker {S : Sys} (h : Reach S.k) {c ch : Nat} {v : Int} (hc : S.k.cages c ≠ none) (hfree : S.k.cages ch = none)
    (hf : answer S c (.sys (.fork ch)) = .ok v) (H : List (Nat × Call)) (hH : ∀ e ∈ H, Spares ch e.1 e.2) :
    answer (run (call S c (.sys (.fork ch))).1 H) ch .getppid = .ok c := by
  cases e : S.k.cages c with
  | none => exact absurd e hc
  | some cg =>
    have hlt := (h.inv.cage c cg e).1
    have hf' : (step S.k c (.fork ch)).2.ret = .ok v := by
      unfold answer call at hf; rw [e] at hf; exact hf
    obtain ⟨-, cg', h1, -, -, -, h2, -⟩ := fork_copies_partial h e hfree hf'
    apply answer_ppid _ hlt
    rw [run_par ch H _ hH, call_k]
    simp only [par, h1, Option.map_some, h2]

/-- C70.  A program that is replaced by `exec` has the same parent, then and later. -/
theorem ppid_exec {S : Sys} (h : Reach S.k) {c ch : Nat} {p : Int} (hlt : ch < 1024) (hp : answer S c .getppid = .ok p)
    (H : List (Nat × Call)) (hH : ∀ e ∈ H, Spares ch e.1 e.2) :
    answer (run (call S c (.sys (.exec ch))).1 H) ch .getppid = .ok p := by
  cases e : S.k.cages c with
  | none => simp only [answer, call, e] at hp; cases hp
  | some cg =>
    obtain ⟨-, cg', h1, -, -, h2, -⟩ := exec_keeps h e hlt
    have e1 : par (run (call S c (.sys (.exec ch))).1 H).k ch = some cg.parent := by
      rw [run_par ch H _ hH, call_k]
      simp only [par, h1, Option.map_some, h2]
    unfold par at e1
    generalize run (call S c (.sys (.exec ch))).1 H = S2 at e1 ⊢
    cases hc' : S2.k.cages ch with
    | none => rw [hc'] at e1; cases e1
    | some cg2 =>
      rw [hc'] at e1
      simp only [Option.map_some, Option.some.injEq] at e1
      simp only [answer, call, e] at hp
      simp only [answer, call, hc', e1, hp]

/-- The four calls about users and groups. -/
inductive Which | uid | euid | gid | egid
  deriving DecidableEq, Repr

/-- The call. -/
def Which.call : Which → Call
  | .uid => .getuid | .euid => .geteuid | .gid => .getgid | .egid => .getegid

/-- The field. -/
def Which.get : Which → Ids → Int
  | .uid, i => i.uid | .euid, i => i.euid | .gid, i => i.gid | .egid, i => i.egid

theorem ask_1000 : ∀ v : Int, (ask v).2 = v ∨ (ask v).2 = 1000 := by
  intro v; unfold ask; split
  · exact .inr rfl
  · exact .inl rfl

/-- The field, once set, stays set. -/
theorem ids_kept (S : Sys) (c k : Nat) (x : Call) (w : Which) (h : Spares k c x) (hk : w.get (S.ids k) = 1000) :
    w.get ((call S c x).1.ids k) = 1000 := by
  unfold call
  cases hc : S.k.cages c with
  | none => exact hk
  | some cg =>
    cases x with
    | sys op =>
      simp only
      cases op with
      | fork ch =>
        simp only [newIds]; split
        · rw [upd_ne _ _ (fun e => h e.symm)]; exact hk
        · exact hk
      | exec ch =>
        simp only [newIds]; split
        · rw [upd_ne _ _ (fun e => h.1 e.symm)]; exact hk
        · exact hk
      | _ => exact hk
    | getpid => exact hk
    | getppid => exact hk
    | getuid =>
      simp only [upd_apply]; split
      · rename_i e; subst e
        cases w <;> simp only [Which.get] at hk ⊢
        · rcases ask_1000 (S.ids k).uid with e | e <;> rw [e]; exact hk
        all_goals exact hk
      · exact hk
    | geteuid =>
      simp only [upd_apply]; split
      · rename_i e; subst e
        cases w <;> simp only [Which.get] at hk ⊢
        · exact hk
        · rcases ask_1000 (S.ids k).euid with e | e <;> rw [e]; exact hk
        all_goals exact hk
      · exact hk
    | getgid =>
      simp only [upd_apply]; split
      · rename_i e; subst e
        cases w <;> simp only [Which.get] at hk ⊢
        · exact hk
        · exact hk
        · rcases ask_1000 (S.ids k).gid with e | e <;> rw [e]; exact hk
        · exact hk
      · exact hk
    | getegid =>
      simp only [upd_apply]; split
      · rename_i e; subst e
        cases w <;> simp only [Which.get] at hk ⊢
        · exact hk
        · exact hk
        · exact hk
        · rcases ask_1000 (S.ids k).egid with e | e <;> rw [e]; exact hk
      · exact hk

theorem run_ids (k : Nat) (w : Which) : ∀ (H : List (Nat × Call)) (S : Sys), (∀ e ∈ H, Spares k e.1 e.2) → w.get (S.ids k) = 1000 →
    w.get ((run S H).ids k) = 1000
  | [], _, _, h => h
  | (c, x) :: H, S, h, hk =>
    run_ids k w H (call S c x).1 (fun e he => h e (List.mem_cons_of_mem _ he)) (ids_kept S c k x w (h (c, x) List.mem_cons_self) hk)

theorem asked {S : Sys} {k : Nat} (w : Which) (hk : S.k.cages k ≠ none) (h : w.get (S.ids k) = 1000) : answer S k w.call = .ok 1000 := by
  cases e : S.k.cages k with
  | none => exact absurd e hk
  | some cg => cases w <;> simp only [Which.get] at h <;> simp only [answer, Which.call, call, e, h] <;> rfl

/-- All fields are -1 or 1000. -/
theorem fields (S : Sys) (H : List (Nat × Call)) (h : ∀ k (w : Which), w.get (S.ids k) = -1 ∨ w.get (S.ids k) = 1000) :
    ∀ k (w : Which), w.get ((run S H).ids k) = -1 ∨ w.get ((run S H).ids k) = 1000 := by
  induction H generalizing S with
  | nil => exact h
  | cons a H ih =>
    obtain ⟨c, x⟩ := a
    apply ih
    intro k w
    have key : ∀ v : Int, v = -1 ∨ v = 1000 → (ask v).2 = -1 ∨ (ask v).2 = 1000 := by
      intro v hv; rcases ask_1000 v with e | e <;> rw [e]
      · exact hv
      · exact .inr rfl
    unfold call
    cases hc : S.k.cages c with
    | none => exact h k w
    | some cg =>
      have fr : w.get Ids.fresh = -1 := by cases w <;> rfl
      cases x with
      | sys op =>
        simp only
        cases op with
        | fork ch =>
          simp only [newIds]; split
          · rw [upd_apply]; split
            · exact h c w
            · exact h k w
          · exact h k w
        | exec ch =>
          simp only [newIds]; split
          · rw [upd_apply]; split
            · exact .inl fr
            · exact h k w
          · exact h k w
        | _ => exact h k w
      | getpid => exact h k w
      | getppid => exact h k w
      | getuid =>
        simp only [upd_apply]; split
        · cases w
          · exact key _ (h c .uid)
          · exact h c .euid
          · exact h c .gid
          · exact h c .egid
        · exact h k w
      | geteuid =>
        simp only [upd_apply]; split
        · cases w
          · exact h c .uid
          · exact key _ (h c .euid)
          · exact h c .gid
          · exact h c .egid
        · exact h k w
      | getgid =>
        simp only [upd_apply]; split
        · cases w
          · exact h c .uid
          · exact h c .euid
          · exact key _ (h c .gid)
          · exact h c .egid
        · exact h k w
      | getegid =>
        simp only [upd_apply]; split
        · cases w
          · exact h c .uid
          · exact h c .euid
          · exact h c .gid
          · exact key _ (h c .egid)
        · exact h k w

/-- C70.  After any history, once a program has asked for its user (or group, real or effective), it is told 1000 each time it asks again, whatever
happens meanwhile, and so is any process it forks.  Partial: the first answer is -1 (`first_uid_violated`). -/
theorem user_after_first_partial (H0 H : List (Nat × Call)) (c : Nat) (w : Which)
    (hk : (run boot H0).k.cages c ≠ none) (hH : ∀ e ∈ H, Spares c e.1 e.2)
    (hl : (run (call (run boot H0) c w.call).1 H).k.cages c ≠ none) :
    answer (run (call (run boot H0) c w.call).1 H) c w.call = .ok 1000 ∧
    ∀ ch H', answer (run (call (run boot H0) c w.call).1 H) c (.sys (.fork ch)) = .ok 0 → (∀ e ∈ H', Spares ch e.1 e.2) →
      (run (call (run (call (run boot H0) c w.call).1 H) c (.sys (.fork ch))).1 H').k.cages ch ≠ none →
      answer (run (call (run (call (run boot H0) c w.call).1 H) c (.sys (.fork ch))).1 H') ch w.call = .ok 1000 := by
  have hb := fields boot H0 (fun k w => .inl (by cases w <;> rfl)) c w
  generalize hS : run boot H0 = S at *
  have h1 : w.get ((call S c w.call).1.ids c) = 1000 := by
    unfold call
    cases e : S.k.cages c with
    | none => exact absurd e hk
    | some cg =>
      cases w <;> simp only [Which.call, upd_same, Which.get, ask] at hb ⊢ <;> rcases hb with e | e <;> rw [e] <;> rfl
  have h2 := run_ids c w H _ hH h1
  refine ⟨asked w hl h2, ?_⟩
  intro ch H' hf hH' hl'
  apply asked w hl'
  apply run_ids ch w H' _ hH'
  generalize run (call S c w.call).1 H = S2 at *
  unfold answer call at hf
  unfold call
  cases e : S2.k.cages c with
  | none => exact absurd e hl
  | some cg =>
    rw [e] at hf
    simp only at hf
    simp only [newIds, hf, decide_true, if_true, upd_same]
    exact h2

/-! ## C71 -/

/-- The event concerns thread `t` of cage `c`: it marks or removes the thread, is its passing of a cancellation point, or creates or removes
the cage. -/
def Touches (c t : Nat) : Ev → Prop
  | .mark c' t' _ => c' = c ∧ t' = t
  | .check _ _ => False
  | .remove c' t' => c' = c ∧ t' = t
  | .point c' t' => c' = c ∧ t' = t
  | .insert c' => c' = c
  | .gone c' => c' = c

/-- No thread is registered in no cage. -/
def noThreads : Threads := fun _ => none

/-- The mark of a thread, if registered. -/
def flag (T : Threads) (c t : Nat) : Option Bool := match T c with | none => none | some m => m t

theorem event_flag (T : Threads) (e : Ev) (c t : Nat) (h : ¬ Touches c t e) : flag (event T e).1 c t = flag T c t := by
  have two : ∀ (c' t' : Nat) (m : Nat → Option Bool) (b : Option Bool), T c' = some m → ¬ (c' = c ∧ t' = t) →
      flag (upd T c' (some (upd m t' b))) c t = flag T c t := by
    intro c' t' m b hm hne
    unfold flag
    by_cases e : c' = c
    · subst e
      rw [upd_same, hm]
      exact upd_ne _ _ (fun e => hne ⟨rfl, e.symm⟩)
    · rw [upd_ne _ _ (fun x => e x.symm)]
  cases e with
  | mark c' t' b =>
    simp only [event]; split
    · rfl
    · rename_i m hm; exact two _ _ _ _ hm h
  | check c' t' => simp only [event]; (repeat' split) <;> rfl
  | remove c' t' =>
    simp only [event]; split
    · rfl
    · rename_i m hm; exact two _ _ _ _ hm h
  | point c' t' =>
    simp only [event]; split
    · rfl
    · rename_i m hm
      split
      · rfl
      · exact two _ _ _ _ hm h
      · rfl
  | insert c' => simp only [flag, event]; rw [upd_ne _ _ (fun e => h e.symm)]
  | gone c' => simp only [flag, event]; rw [upd_ne _ _ (fun e => h e.symm)]

theorem play_flag (c t : Nat) : ∀ (H : List Ev) (T : Threads), (∀ e ∈ H, ¬ Touches c t e) → flag (play T H) c t = flag T c t
  | [], _, _ => rfl
  | e :: H, T, h => by
    rw [play, play_flag c t H _ (fun x hx => h x (List.mem_cons_of_mem _ hx)), event_flag T e c t (h e List.mem_cons_self)]

theorem point_flag (T : Threads) (c t : Nat) : (event T (.point c t)).2 =
    match flag T c t with | none => .panic | some true => .ended | some false => .unit := by
  simp only [flag, event]
  cases hc : T c with
  | none => rfl
  | some m =>
    simp only
    cases hm : m t with
    | none => rfl
    | some b => cases b <;> rfl

/-- C71.  A thread that was marked ends at its next cancellation point, whatever happens to other threads and processes meanwhile. -/
theorem cancel_ends {T : Threads} {c t : Nat} (hc : T c ≠ none) (H : List Ev) (hH : ∀ e ∈ H, ¬ Touches c t e) :
    (event (play (event T (.mark c t true)).1 H) (.point c t)).2 = .ended := by
  rw [point_flag, play_flag c t H _ hH]
  cases e : T c with
  | none => exact absurd e hc
  | some m => simp only [event, e, flag, upd_same]

/-- C71.  A thread that is marked not to be cancelled, or has ended once, passes its cancellation points until it is marked again. -/
theorem cancel_passes {T : Threads} {c t : Nat} (hc : T c ≠ none) (e : Ev) (he : e = .mark c t false ∨ (e = .point c t ∧ (event T e).2 = .ended))
    (H : List Ev) (hH : ∀ x ∈ H, Touches c t x → x = .point c t) :
    (event (play (event T e).1 H) (.point c t)).2 = .unit := by
  have h0 : flag (event T e).1 c t = some false := by
    cases hm : T c with
    | none => exact absurd hm hc
    | some m =>
      rcases he with rfl | ⟨rfl, h⟩
      · simp only [event, hm, flag, upd_same]
      · simp only [event, hm] at h ⊢
        cases hb : m t with
        | none => rw [hb] at h; cases h
        | some b => cases b with
          | true => simp only [flag, upd_same]
          | false => rw [hb] at h; cases h
  generalize (event T e).1 = T1 at h0
  rw [point_flag]
  suffices flag (play T1 H) c t = some false by rw [this]
  clear he hc
  induction H generalizing T1 with
  | nil => exact h0
  | cons x H ih =>
    apply ih (fun y hy => hH y (List.mem_cons_of_mem _ hy))
    by_cases ht : Touches c t x
    · have := hH x List.mem_cons_self ht
      subst this
      simp only [event]
      cases hm : T1 c with
      | none => unfold flag at h0; rw [hm] at h0; cases h0
      | some m =>
        have hb : m t = some false := by unfold flag at h0; rw [hm] at h0; exact h0
        simp only [hb]; exact h0
    · rw [event_flag _ _ _ _ ht]; exact h0

/-- C71.  A thread only ends at a cancellation point if it was marked, and nothing has happened to it since. -/
theorem cancel_only_marked {H : List Ev} {c t : Nat} (h : (event (play noThreads H) (.point c t)).2 = .ended) :
    ∃ H1 H2, H = H1 ++ .mark c t true :: H2 ∧ ∀ e ∈ H2, ¬ Touches c t e := by
  rw [point_flag] at h
  have hf : flag (play noThreads H) c t = some true := by
    cases e : flag (play noThreads H) c t with
    | none => rw [e] at h; cases h
    | some b => cases b with
      | true => rfl
      | false => rw [e] at h; cases h
  have app : ∀ (A B : List Ev) (T : Threads), play T (A ++ B) = play (play T A) B := by
    intro A
    induction A with
    | nil => intros; rfl
    | cons a A ih => intro B T; exact ih B _
  suffices key : ∀ (R : List Ev), flag (play noThreads R.reverse) c t = some true →
      ∃ H1 H2, R.reverse = H1 ++ .mark c t true :: H2 ∧ ∀ e ∈ H2, ¬ Touches c t e by
    have := key H.reverse (by rw [List.reverse_reverse]; exact hf)
    rwa [List.reverse_reverse] at this
  intro R
  induction R with
  | nil => intro h; cases h
  | cons e R ih =>
    intro h
    rw [List.reverse_cons, app] at h
    rw [List.reverse_cons]
    simp only [play] at h
    by_cases ht : Touches c t e
    · generalize play noThreads R.reverse = T at h
      have : e = .mark c t true := by
        cases e with
        | mark c' t' b =>
          obtain ⟨rfl, rfl⟩ := ht
          cases b with
          | true => rfl
          | false =>
            simp only [event] at h
            split at h
            · rename_i hm; simp only [flag, hm] at h; cases h
            · simp [flag] at h
        | check c' t' => exact ht.elim
        | remove c' t' =>
          obtain ⟨rfl, rfl⟩ := ht
          simp only [event] at h
          split at h
          · rename_i hm; simp only [flag, hm] at h; cases h
          · simp [flag] at h
        | point c' t' =>
          obtain ⟨rfl, rfl⟩ := ht
          simp only [event] at h
          split at h
          · rename_i hm; simp only [flag, hm] at h; cases h
          · rename_i m hm
            split at h
            · rename_i hb; simp only [flag, hm, hb] at h; cases h
            · simp [flag] at h
            · rename_i hb; simp only [flag, hm, hb] at h; cases h
        | insert c' => cases ht; simp [event, flag] at h
        | gone c' => cases ht; simp [event, flag] at h
      subst this
      exact ⟨R.reverse, [], rfl, fun _ h => by cases h⟩
    · rw [event_flag _ _ _ _ ht] at h
      obtain ⟨H1, H2, e1, e2⟩ := ih h
      refine ⟨H1, H2 ++ [e], by rw [e1]; simp, ?_⟩
      intro x hx
      rcases List.mem_append.1 hx with hx | hx
      · exact e2 x hx
      · rw [List.mem_singleton.1 hx]; exact ht

/-- C71.  A registered thread can be asked about and passes cancellation points without ending the process.  Partial: one that is not registered cannot
(`unregistered_thread_violated`). -/
theorem registered_returns_partial {T : Threads} {c t : Nat} (hc : T c ≠ none) (b : Bool) (H : List Ev) (hH : ∀ e ∈ H, ¬ Touches c t e) :
    (event (play (event T (.mark c t b)).1 H) (.check c t)).2 = .val b ∧
    (event (play (event T (.mark c t b)).1 H) (.point c t)).2 ≠ .panic := by
  have hf : flag (play (event T (.mark c t b)).1 H) c t = some b := by
    rw [play_flag c t H _ hH]
    cases e : T c with
    | none => exact absurd e hc
    | some m => simp only [event, e, flag, upd_same]
  rw [point_flag, hf]
  refine ⟨?_, by cases b <;> simp⟩
  unfold flag at hf
  generalize play (event T (.mark c t b)).1 H = T1 at hf ⊢
  simp only [event]
  split
  · rename_i hm; rw [hm] at hf; cases hf
  · rename_i m hm; rw [hm] at hf; simp only at hf; rw [hf]

end Verif.Ident
