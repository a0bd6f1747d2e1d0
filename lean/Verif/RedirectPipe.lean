import Verif.RedirectProps

/-! # A shell pipeline is wired as intended, whatever the order of the calls (property C108) -/

namespace Verif.Redirect
open Verif.Kernel Verif.Fs Verif.Path Verif.Confine

/-- `a | b`, the first program: its output into the pipe; then both ends are closed. -/
def left (r w : Nat) : List Redir := [.onto w 1, .shut r, .shut w]

/-- The second program: its input from the pipe. -/
def right (r w : Nat) : List Redir := [.onto r 0, .shut r, .shut w]

/-- The shell closes its two ends. -/
def shell (r w : Nat) : List Redir := [.shut r, .shut w]

/-- A child of a cage with open standard descriptors starts with exactly its table. -/
theorem fork_table {s : State} (hR : Reach s) {c ch : Nat} {cg : Cage} {v : Int} (hc : s.cages c = some cg) (hfree : s.cages ch = none)
    (hstd : ∀ k, k < 3 → cg.fds k ≠ none) (h : (step s c (.fork ch)).2.ret = .ok v) :
    (∃ cg', (step s c (.fork ch)).1.cages ch = some cg' ∧ cg'.fds = cg.fds ∧ cg'.cwd = cg.cwd ∧ cg'.parent = c) ∧
    ∀ k, k ≠ ch → (step s c (.fork ch)).1.cages k = s.cages k := by
  obtain ⟨-, cg', h1, h2, h3, h4, h5, h6⟩ := fork_copies_partial hR hc hfree h
  refine ⟨⟨cg', h1, ?_, h4, h5⟩, h6⟩
  funext k
  cases hk : cg.fds k with
  | some d => exact h2 k d hk
  | none =>
    rw [h3 k hk]
    by_cases h : k < 3
    · exact absurd hk (hstd k h)
    · match k, h with
      | k + 3, _ => rfl

theorem reach_fresh {s : State} (hR : Reach s) : Fresh s := by
  intro j hj
  cases e : s.pipes j with
  | none => rfl
  | some q => have := (hR.inv.pex j).1 (by simp [e]); omega

/-- While the cages of a set make only redirections, nobody outside the set comes to hold a pipe that nobody outside held, and its contents stay. -/
theorem redirect_confined {id : Nat} {E : Nat → Prop} {h : List (Nat × Op)} : ∀ {s : State} {p : Verif.Pipe.Pipe} (_ : Reach s) (_ : Calm s h)
    (_ : s.pipes id = some p) (_ : ∀ k, Has s k (.pipe id) → E k) (_ : ∀ x ∈ h, E x.1 → ∃ r : Redir, x.2 = r.op),
    (∀ k, Has (run s h) k (.pipe id) → E k) ∧ ∃ p', (run s h).pipes id = some p' ∧ p'.buf = p.buf := by
  induction h with
  | nil => intro s p _ _ hp hE _; exact ⟨hE, p, hp, rfl⟩
  | cons x h ih =>
    obtain ⟨c, op⟩ := x
    intro s p hR hcalm hpp hE hr
    cases hcalm with
    | cons ht hp hcalm =>
      have hc := hr (c, op) (List.mem_cons_self ..)
      have hid : id < s.npipe := (hR.inv.pex id).1 (by simp [hpp])
      obtain ⟨-, t, g, p', hT, hG, hp', -, hbuf⟩ := step_moves (reach_fresh hR) c op id p hpp
      have no : ∀ fd, ((∃ fd n, op = .read fd n) ∨ (∃ fd d, op = .write fd d) ∨ ∃ fd d, op = .writev fd d) → ¬ OnPipe s c fd id := by
        rintro fd hop ⟨cg, f, hcg, hd⟩
        obtain ⟨r, e⟩ := hc (hE c ⟨fd.toNat, f, slot_getFd hcg hd⟩)
        simp only at e
        subst e
        rcases hop with ⟨_, _, e⟩ | ⟨_, _, e⟩ | ⟨_, _, e⟩ <;> cases r <;> cases e
      have ht0 : t = [] := by
        cases op <;> simp only [Takes] at hT
        case read fd n =>
          rcases hT with ⟨h1, -⟩ | ⟨-, h1⟩
          · exact absurd h1 (no _ (.inl ⟨_, _, rfl⟩))
          · exact h1
        all_goals exact hT
      have hg0 : g = [] := by
        cases op <;> simp only [Gives] at hG
        case write fd n =>
          rcases hG with ⟨h1, -⟩ | ⟨-, h1⟩
          · exact absurd h1 (no _ (.inr (.inl ⟨_, _, rfl⟩)))
          · exact h1
        case writev fd n =>
          rcases hG with ⟨h1, -⟩ | ⟨-, h1⟩
          · exact absurd h1 (no _ (.inr (.inr ⟨_, _, rfl⟩)))
          · exact h1
        all_goals exact hG
      subst ht0; subst hg0
      have hb : p'.buf = p.buf := by simpa using hbuf
      have hE' : ∀ k, Has (step s c op).1 k (.pipe id) → E k := by
        intro k hk
        have hh := heirs_has hE c op k hk
        have hM : ¬ Makes s c op (.pipe id) := by rintro ⟨-, h1, -⟩; omega
        simp only [heirs, hp, if_false] at hh
        cases op <;> simp only at hh
        case fork ch =>
          split at hh
          · obtain ⟨r, e⟩ := hc hh; cases r <;> cases e
          · exact hh
        case exec ch =>
          split at hh
          · obtain ⟨r, e⟩ := hc hh; cases r <;> cases e
          · exact hh.2
        case exit st => exact hh.2
        all_goals
          rcases hh with hh | ⟨-, hh⟩
          · exact hh
          · exact absurd hh hM
      obtain ⟨a, p2, b, e⟩ := ih (.step c op hR ht hp) hcalm hp' hE' (fun x hx => hr x (List.mem_cons_of_mem _ hx))
      exact ⟨a, p2, b, e.trans hb⟩

theorem does_mem {c : Nat} {h : List (Nat × Op)} {rs : List Redir} (hd : Does c h rs) {x : Nat × Op} (hx : x ∈ h) (hc : x.1 = c) :
    ∃ r : Redir, x.2 = r.op := by
  have : x.2 ∈ rs.map Redir.op := by
    rw [← hd]; exact List.mem_map.2 ⟨x, List.mem_filter.2 ⟨hx, by simpa using hc⟩, rfl⟩
  obtain ⟨r, -, e⟩ := List.mem_map.1 this
  exact ⟨r, e.symm⟩

/-- How things stand once the pipeline is wired: the first program's output is the write end, the second one's input the read end, everything else in
the three tables is as it was in the shell, and there is no other descriptor for the pipe anywhere. -/
structure Wired (cg : Cage) (id a b c : Nat) (s : State) : Prop where
  reach : Reach s
  out : ∃ f, slot s a 1 = some (.pipe id f) ∧ f &&& 3#32 = 1#32 ∧ f &&& 0o2000000#32 = 0#32
  inp : ∃ f, slot s b 0 = some (.pipe id f) ∧ f &&& 3#32 = 0#32 ∧ f &&& 0o2000000#32 = 0#32
  restA : ∀ k, k ≠ 1 → slot s a k = cg.fds k
  restB : ∀ k, k ≠ 0 → slot s b k = cg.fds k
  shell : ∀ k, slot s c k = cg.fds k
  only : ∀ k fd f, slot s k fd = some (.pipe id f) → (k = a ∧ fd = 1) ∨ (k = b ∧ fd = 0)

/-- The three cages after the shell has made the pipe and forked both programs: each has the shell's table with the two ends in it. -/
structure Forked (cg : Cage) (id r w a b c : Nat) (s : State) : Prop where
  reach : Reach s
  ab : a ≠ b
  ac : a ≠ c
  bc : b ≠ c
  std : ∀ k, k < 3 → cg.fds k ≠ none
  rw_ : r < w
  r3 : 3 ≤ r
  wlt : w < 1024
  rfree : cg.fds r = none
  wfree : cg.fds w = none
  table : ∃ fr fw, fr &&& 3#32 = 0#32 ∧ fw &&& 3#32 = 1#32 ∧ ∀ x, x = a ∨ x = b ∨ x = c →
    ∃ cx, s.cages x = some cx ∧ cx.fds = upd (upd cg.fds r (some (.pipe id fr))) w (some (.pipe id fw))
  fresh : ∀ k f, cg.fds k ≠ some (.pipe id f)
  empty : ∃ p, s.pipes id = some p ∧ p.buf = []
  only : ∀ k, Has s k (.pipe id) → k = a ∨ k = b ∨ k = c

/-- C108.  The shell makes a pipe and forks two programs. -/
theorem forked_partial {s : State} (hR : Reach s) {c a b : Nat} {cg : Cage} (hc : s.cages c = some cg) (hstd : ∀ k, k < 3 → cg.fds k ≠ none)
    {fl : BitVec 32} {va vb : Int} {r w : Nat} (hp : (step s c (.pipe2 fl)).2.ret = .ok 0) (hrw : (step s c (.pipe2 fl)).2.pair = (r, w))
    (ha : s.cages a = none) (hb : s.cages b = none) (hab : a ≠ b)
    (hfa : (step (step s c (.pipe2 fl)).1 c (.fork a)).2.ret = .ok va)
    (hfb : (step (step (step s c (.pipe2 fl)).1 c (.fork a)).1 c (.fork b)).2.ret = .ok vb) :
    Forked cg s.npipe r w a b c (run s [(c, .pipe2 fl), (c, .fork a), (c, .fork b)]) := by
  have hac : a ≠ c := by rintro rfl; rw [hc] at ha; cases ha
  have hbc : b ≠ c := by rintro rfl; rw [hc] at hb; cases hb
  obtain ⟨r', w', fr, fw, e1, e2, l1, l2, f1, f2, e3⟩ := pipe2_fds hc hp
  rw [hrw] at e1
  obtain ⟨rfl, rfl⟩ : r = r' ∧ w = w' := by simpa [Prod.ext_iff] using e1
  obtain ⟨p0, hp0, hb0, -⟩ := pipe2_new s c fl hp
  have r3 : 3 ≤ r := by
    rcases Nat.lt_or_ge r 3 with h | h
    · exact absurd l1.2.2.1 (hstd r h)
    · exact h
  have ht : Tame s c (.pipe2 fl) := by
    simp only [Tame, hc]
    intro fd _
    by_cases h : w = fd
    · exact ⟨r, by omega, l1.2.1, l1.2.2.1⟩
    · exact ⟨w, h, l2.2.1, l2.2.2.1⟩
  have hold : ∀ k f, cg.fds k ≠ some (.pipe s.npipe f) := by
    intro k f hk
    have := ((hR.inv.cage c cg hc).2.1 k _ hk).2
    simp only [DescOk] at this
    omega
  have hR1 : Reach (step s c (.pipe2 fl)).1 := .step c _ hR ht (by rw [hp]; exact nofun)
  have hhas1 : ∀ k, Has (step s c (.pipe2 fl)).1 k (.pipe s.npipe) → k = c := by
    have hE : ∀ k, Has s k (.pipe s.npipe) → False := by
      rintro k ⟨fd, f, hk⟩
      cases hck : s.cages k with
      | none => rw [slot_none hck] at hk; cases hk
      | some ck =>
        simp only [slot, hck] at hk
        have := ((hR.inv.cage k ck hck).2.1 fd _ hk).2
        simp only [DescOk] at this
        omega
    intro k hk
    have hh := heirs_has hE c (.pipe2 fl) k hk
    simp only [heirs, hp, reduceCtorEq, if_false, false_or] at hh
    exact hh.1
  generalize hs1 : (step s c (.pipe2 fl)).1 = s1 at *
  generalize hT : (cg.withSlot r (some (.pipe s.npipe fr))).withSlot w (some (.pipe s.npipe fw)) = cg1 at e3
  have ht1 : cg1.fds = upd (upd cg.fds r (some (.pipe s.npipe fr))) w (some (.pipe s.npipe fw)) := by rw [← hT]; rfl
  have hc1 : s1.cages c = some cg1 := by rw [e3]; simp
  have ha1 : s1.cages a = none := by rw [e3]; simp [hac, ha]
  have hb1 : s1.cages b = none := by rw [e3]; simp [hbc, hb]
  have hstd1 : ∀ k, k < 3 → cg1.fds k ≠ none := by
    intro k hk
    rw [ht1]; simp only [upd_apply]
    rw [if_neg (by omega), if_neg (by omega)]; exact hstd k hk
  obtain ⟨⟨cga, a1, a2, -, -⟩, a3⟩ := fork_table hR1 hc1 ha1 hstd1 hfa
  have hR2 : Reach (step s1 c (.fork a)).1 := .step c _ hR1 (by simp only [Tame, hc1]; exact ha1) (by rw [hfa]; exact nofun)
  have hhas2 : ∀ k, Has (step s1 c (.fork a)).1 k (.pipe s.npipe) → k = a ∨ k = c := by
    intro k hk
    have hh := heirs_has hhas1 c (.fork a) k hk
    simp only [heirs, hfa, reduceCtorEq, if_false] at hh
    split at hh
    · exact .inl ‹_›
    · exact .inr hh
  obtain ⟨p2, hp2, hbuf2, -⟩ := (step_bufs (reach_fresh hR1) c (.fork a) rfl).keep _ p0 hp0
  generalize hs2 : (step s1 c (.fork a)).1 = s2 at *
  have hc2 : s2.cages c = some cg1 := by rw [a3 c (Ne.symm hac), hc1]
  have hb2 : s2.cages b = none := by rw [a3 b (Ne.symm hab), hb1]
  obtain ⟨⟨cgb, b1, b2, -, -⟩, b3⟩ := fork_table hR2 hc2 hb2 hstd1 hfb
  have hR3 : Reach (step s2 c (.fork b)).1 := .step c _ hR2 (by simp only [Tame, hc2]; exact hb2) (by rw [hfb]; exact nofun)
  have hhas3 : ∀ k, Has (step s2 c (.fork b)).1 k (.pipe s.npipe) → k = a ∨ k = b ∨ k = c := by
    intro k hk
    have hh := heirs_has hhas2 c (.fork b) k hk
    simp only [heirs, hfb, reduceCtorEq, if_false] at hh
    split at hh
    · exact .inr (.inl ‹_›)
    · rcases hh with h | h
      · exact .inl h
      · exact .inr (.inr h)
  obtain ⟨p3, hp3, hbuf3, -⟩ := (step_bufs (reach_fresh hR2) c (.fork b) rfl).keep _ p2 hp2
  have hrun : run s [(c, .pipe2 fl), (c, .fork a), (c, .fork b)] = (step s2 c (.fork b)).1 := by
    rw [← hs2, ← hs1]; rfl
  rw [hrun]
  refine ⟨hR3, hab, hac, hbc, hstd, e2, r3, l2.2.1, l1.2.2.1, l2.2.2.1, ⟨fr, fw, f1, f2, ?_⟩, hold, ⟨p3, hp3, by rw [hbuf3, hbuf2, hb0]⟩, hhas3⟩
  rintro x (rfl | rfl | rfl)
  · exact ⟨cga, by rw [b3 x hab, a1], by rw [a2, ht1]⟩
  · exact ⟨cgb, b1, by rw [b2, ht1]⟩
  · exact ⟨cg1, by rw [b3 x (Ne.symm hbc), hc2], ht1⟩

theorem left_plan {r w : Nat} (h3 : 3 ≤ r) (hrw : r < w) (k : Nat) : Plan.start.all (left r w) k =
    if k = w then none else if k = r then none else if k = 1 then some (w, true) else some (k, false) := by
  have hne : w ≠ 1 := by omega
  simp [Plan.all, left, Plan.after, Plan.start, hne]

theorem right_plan {r w : Nat} (h3 : 3 ≤ r) (k : Nat) : Plan.start.all (right r w) k =
    if k = w then none else if k = r then none else if k = 0 then some (r, true) else some (k, false) := by
  have hne : r ≠ 0 := by omega
  simp [Plan.all, right, Plan.after, Plan.start, hne]

theorem shell_plan {r w : Nat} (k : Nat) : Plan.start.all (shell r w) k =
    if k = w then none else if k = r then none else some (k, false) := by
  simp [Plan.all, shell, Plan.after, Plan.start]

theorem copy_pipe {id : Nat} {f : BitVec 32} {d : Desc} (h : Copy (.pipe id f) d) :
    ∃ g, d = .pipe id g ∧ g &&& 3#32 = f &&& 3#32 ∧ g &&& 0o2000000#32 = 0#32 := by
  cases d <;> simp only [Copy] at h
  obtain ⟨rfl, rfl⟩ := h
  refine ⟨_, rfl, ?_, ?_⟩
  · rw [BitVec.and_assoc, (by decide : ~~~0o2000000#32 &&& 3#32 = 3#32)]
  · rw [BitVec.and_assoc, (by decide : ~~~0o2000000#32 &&& 0o2000000#32 = 0#32)]; simp

/-- A number that stands for itself is as it was. -/
theorem is_self {t : Nat → Option Desc} {j : Nat} {x : Option Desc} (h : Is t (some (j, false)) x) : x = t j := by
  simp only [Is] at h
  split at h
  · rw [h]; exact Eq.symm ‹_›
  · obtain ⟨d', rfl, e⟩ := h
    simp only [Bool.false_eq_true, if_false] at e
    rw [e]; exact Eq.symm ‹_›

/-- C108.  Then the two programs and the shell make their redirections, in any order, with any calls of any other processes in between: the pipeline
is wired, and the pipe is still empty. -/
theorem wired_partial {cg : Cage} {id r w a b c : Nat} {s : State} (hF : Forked cg id r w a b c s) {h : List (Nat × Op)} (hh : Calm s h)
    (ha : Does a h (left r w)) (hb : Does b h (right r w)) (hc : Does c h (shell r w)) :
    Wired cg id a b c (run s h) ∧ ∃ p, (run s h).pipes id = some p ∧ p.buf = [] := by
  obtain ⟨fr, fw, f1, f2, ht⟩ := hF.table
  obtain ⟨p, hp, hpb⟩ := hF.empty
  have hr3 := hF.r3; have hrw := hF.rw_; have hw := hF.wlt
  generalize hT : upd (upd cg.fds r (some (.pipe id fr))) w (some (.pipe id fw)) = t at ht
  have tr : t r = some (.pipe id fr) := by
    rw [← hT]
    have hne : r ≠ w := by omega
    simp [upd_apply, hne]
  have tw : t w = some (.pipe id fw) := by rw [← hT]; simp
  have tk : ∀ k, k ≠ r → k ≠ w → t k = cg.fds k := by
    intro k h1 h2; rw [← hT]; simp only [upd_apply]; rw [if_neg h2, if_neg h1]
  obtain ⟨ca, hca, ta⟩ := ht a (.inl rfl)
  obtain ⟨cb, hcb, tb⟩ := ht b (.inr (.inl rfl))
  obtain ⟨cc, hcc, tc⟩ := ht c (.inr (.inr rfl))
  obtain ⟨hR', ca', ea, Aa, -, -⟩ := redirect_exact_partial hF.reach hh hca (t := t) (σ := .start) (by rw [ta]; exact start_arranged t) ha
    ⟨⟨by omega, w, false, _, rfl, tw, nofun⟩, (by show r < 1024; omega), hw, trivial⟩
  obtain ⟨-, cb', eb, Ab, -, -⟩ := redirect_exact_partial hF.reach hh hcb (t := t) (σ := .start) (by rw [tb]; exact start_arranged t) hb
    ⟨⟨by omega, r, false, _, rfl, tr, nofun⟩, (by show r < 1024; omega), hw, trivial⟩
  obtain ⟨-, cc', ec, Ac, -, -⟩ := redirect_exact_partial hF.reach hh hcc (t := t) (σ := .start) (by rw [tc]; exact start_arranged t) hc
    ⟨(by show r < 1024; omega), hw, trivial⟩
  obtain ⟨hO, p', hp', hb'⟩ := redirect_confined (E := fun k => k = a ∨ k = b ∨ k = c) hF.reach hh hp hF.only (by
    rintro x hx (h1 | h1 | h1)
    · exact does_mem ha hx h1
    · exact does_mem hb hx h1
    · exact does_mem hc hx h1)
  -- a number that stands for itself or is closed: as in the shell before
  have rest : ∀ {k : Nat} {x : Option Desc}, Is t (if k = w then none else if k = r then none else some (k, false)) x → x = cg.fds k := by
    intro k x hx
    split at hx
    · rename_i e; subst e; simp only [Is] at hx; rw [hx, hF.wfree]
    · split at hx
      · rename_i e; subst e; simp only [Is] at hx; rw [hx, hF.rfree]
      · rw [is_self hx, tk k ‹_› ‹_›]
  have sa : ∀ k, slot (run s h) a k = ca'.fds k := fun k => by simp [slot, ea]
  have sb : ∀ k, slot (run s h) b k = cb'.fds k := fun k => by simp [slot, eb]
  have sc : ∀ k, slot (run s h) c k = cc'.fds k := fun k => by simp [slot, ec]
  have ra : ∀ k, k ≠ 1 → slot (run s h) a k = cg.fds k := by
    intro k hk; have := Aa k; rw [left_plan hr3 hrw, if_neg hk] at this; rw [sa]; exact rest this
  have rb : ∀ k, k ≠ 0 → slot (run s h) b k = cg.fds k := by
    intro k hk; have := Ab k; rw [right_plan hr3, if_neg hk] at this; rw [sb]; exact rest this
  have rc : ∀ k, slot (run s h) c k = cg.fds k := by
    intro k; have := Ac k; rw [shell_plan] at this; rw [sc]; exact rest this
  have old := hF.fresh
  refine ⟨⟨hR', ?_, ?_, ra, rb, rc, ?_⟩, p', hp', hb'.trans hpb⟩
  · have := Aa 1
    rw [left_plan hr3 hrw, if_neg (by omega), if_neg (by omega), if_pos rfl] at this
    simp only [Is, tw, if_true] at this
    obtain ⟨d, e1, e2⟩ := this
    obtain ⟨g, rfl, e3, e4⟩ := copy_pipe e2
    exact ⟨g, by rw [sa, e1], e3.trans f2, e4⟩
  · have := Ab 0
    rw [right_plan hr3, if_neg (by omega), if_neg (by omega), if_pos rfl] at this
    simp only [Is, tr, if_true] at this
    obtain ⟨d, e1, e2⟩ := this
    obtain ⟨g, rfl, e3, e4⟩ := copy_pipe e2
    exact ⟨g, by rw [sb, e1], e3.trans f1, e4⟩
  · intro k fd f hk
    rcases hO k ⟨fd, f, hk⟩ with rfl | rfl | rfl
    · by_cases h1 : fd = 1
      · exact .inl ⟨rfl, h1⟩
      · rw [ra fd h1] at hk; exact absurd hk (old _ _)
    · by_cases h1 : fd = 0
      · exact .inr ⟨rfl, h1⟩
      · rw [rb fd h1] at hk; exact absurd hk (old _ _)
    · rw [rc fd] at hk; exact absurd hk (old _ _)

/-! ## What the programs see -/

theorem count_zero {s : State} {q : Option Desc → Bool} (hq : q none = false) (h : ∀ k fd, q (slot s k fd) = false) : countSlots s.cages q = 0 := by
  unfold countSlots
  have : ∀ l : List Nat, (∀ x ∈ l, x = 0) → l.sum = 0 := by
    intro l; induction l with
    | nil => simp
    | cons x l ih => intro hl; simp [hl x (List.mem_cons_self ..), ih (fun y hy => hl y (List.mem_cons_of_mem _ hy))]
  apply this
  intro x hx
  obtain ⟨k, -, rfl⟩ := List.mem_map.1 hx
  cases hk : s.cages k with
  | none => rfl
  | some ck =>
    simp only [List.countP_eq_zero]
    intro fd _
    have := h k fd
    simp only [slot, hk] at this
    simp [this]

theorem count_pos {s : State} {q : Option Desc → Bool} {k fd : Nat} {ck : Cage} (hk : k < 1024) (hf : fd < 1024) (hc : s.cages k = some ck)
    (h : q (ck.fds fd) = true) : countSlots s.cages q ≠ 0 := by
  unfold countSlots
  have : ∀ l : List Nat, ∀ x ∈ l, x ≠ 0 → l.sum ≠ 0 := by
    intro l; induction l with
    | nil => simp
    | cons y l ih =>
      intro x hx h0
      simp only [List.sum_cons]
      rcases List.mem_cons.1 hx with rfl | hx
      · omega
      · have := ih x hx h0; omega
  refine this _ _ (List.mem_map.2 ⟨k, List.mem_range.2 hk, rfl⟩) ?_
  simp only [hc]
  have : 0 < (List.range 1024).countP (fun fd => q (ck.fds fd)) := List.countP_pos_iff.2 ⟨fd, List.mem_range.2 hf, h⟩
  omega

theorem slot_cage {s : State} {k fd : Nat} {d : Desc} (h : slot s k fd = some d) : ∃ ck, s.cages k = some ck ∧ ck.fds fd = some d := by
  cases hk : s.cages k with
  | none => rw [slot_none hk] at h; cases h
  | some ck => exact ⟨ck, rfl, by simpa only [slot, hk] using h⟩

/-- C108.  As long as the first program has its output, the second, asking on an empty pipe, is not told that its input has ended. -/
theorem wired_waits {cg : Cage} {id a b c : Nat} {s : State} (h : Wired cg id a b c s) {p : Verif.Pipe.Pipe} (hp : s.pipes id = some p)
    (he : p.buf = []) {n : Nat} (hn : 0 < n) : (step s b (.read 0 n)).2.ret ≠ .ok 0 := by
  obtain ⟨f, i1, i2, -⟩ := h.inp
  obtain ⟨g, o1, o2, -⟩ := h.out
  obtain ⟨cb, hcb, hd⟩ := slot_cage i1
  obtain ⟨ca, hca, hda⟩ := slot_cage o1
  intro hr
  have := (pipe_eof_partial h.reach (fd := 0) hcb (by omega) hd i2 hp hn he).1 hr
  exact count_pos (h.reach.inv.cage a ca hca).1 (by omega : 1 < 1024) hca (by rw [hda]; simp [isEndOf, o2]) this

/-- C108.  Once the first program has closed its output, the second, having read everything, is told that its input has ended: there is no forgotten
write end. -/
theorem wired_ends_partial {cg : Cage} {id a b c : Nat} {s : State} (h : Wired cg id a b c s) (hab : a ≠ b) {p : Verif.Pipe.Pipe}
    (hp : (step s a (.close 1)).1.pipes id = some p) (he : p.buf = []) {n : Nat} (hn : 0 < n) :
    (step (step s a (.close 1)).1 b (.read 0 n)).2.ret = .ok 0 := by
  obtain ⟨f, i1, i2, -⟩ := h.inp
  obtain ⟨g, o1, o2, -⟩ := h.out
  obtain ⟨cb, hcb, hd⟩ := slot_cage i1
  obtain ⟨ca, hca, hda⟩ := slot_cage o1
  obtain ⟨h1, h2⟩ := close_open h.reach (fd := 1) hca (by omega) hda
  have hR : Reach (step s a (.close 1)).1 := .step a _ h.reach (by simp only [Tame, hca]) (by
    have : (step s a (.close 1)).2.ret = .ok 0 := h1
    rw [this]; exact nofun)
  have h2' : (step s a (.close 1)).1.cages = upd s.cages a (some (ca.withSlot 1 none)) := h2
  have hcb' : (step s a (.close 1)).1.cages b = some cb := by rw [h2']; simp [Ne.symm hab, hcb]
  refine (pipe_eof_partial hR (fd := 0) hcb' (by omega) hd i2 hp hn he).2 (count_zero rfl ?_)
  intro k fd
  cases hs : slot (step s a (.close 1)).1 k fd with
  | none => rfl
  | some d =>
    cases d <;> try rfl
    rename_i id' f'
    by_cases hid : id' = id
    · subst hid
      obtain ⟨ck, hck, hdk⟩ := slot_cage hs
      rw [h2'] at hck
      by_cases hka : k = a
      · subst hka
        simp only [upd_same, Option.some.injEq] at hck
        subst hck
        simp only [Cage.withSlot, upd_apply] at hdk
        split at hdk
        · cases hdk
        · rename_i hfd
          rcases h.only k fd f' (by simp only [slot, hca]; exact hdk) with ⟨-, e⟩ | ⟨e, -⟩
          · exact absurd e hfd
          · exact absurd e hab
      · rw [upd_ne _ _ hka] at hck
        rcases h.only k fd f' (by simp only [slot, hck]; exact hdk) with ⟨e, -⟩ | ⟨rfl, rfl⟩
        · exact absurd e hka
        · simp only [slot, hck, hdk] at i1
          cases i1
          simp [isEndOf, i2]
    · simp [isEndOf, hid]

/-! ## A case -/

/-- The shell is cage 0; it makes the pipe and forks 2 and 3. -/
def prelude : List (Nat × Op) := [(0, .pipe2 0#32), (0, .fork 2), (0, .fork 3)]

/-- The three make their redirections in some order; cage 1 makes a pipe of its own and forks in between. -/
def wiring : List (Nat × Op) :=
  [(3, .dup2 3 0), (0, .close 3), (1, .pipe2 0#32), (2, .dup2 4 1), (2, .close 3), (1, .fork 4), (3, .close 3), (0, .close 4), (3, .close 4),
    (4, .close 3), (2, .close 4)]

/-- The hypotheses are met. -/
theorem wiring_calm : Calm (run init prelude) wiring := runB_calm (by decide +kernel)

example : Does 2 wiring (left 3 4) ∧ Does 3 wiring (right 3 4) ∧ Does 0 wiring (shell 3 4) := by
  refine ⟨rfl, rfl, rfl⟩

/-- The shell's table before the pipe is made. -/
theorem prelude_forked : ∃ cg, init.cages 0 = some cg ∧ Forked cg 0 3 4 2 3 0 (run init prelude) := by
  refine ⟨_, rfl, ?_⟩
  exact forked_partial (fl := 0#32) (va := 0) (vb := 0) .init rfl (by decide +kernel) (by decide +kernel) (by decide +kernel) rfl rfl (by decide)
    (by decide +kernel) (by decide +kernel)

/-- After it, first the pipeline is empty and open, then the first program closes its output. -/
example : slot (run init (prelude ++ wiring)) 2 1 = some (.pipe 0 1#32) ∧ slot (run init (prelude ++ wiring)) 3 0 = some (.pipe 0 0#32) ∧
    (step (run init (prelude ++ wiring)) 3 (.read 0 5)).2.ret = .blocked ∧
    (step (run init (prelude ++ wiring ++ [(2, .write 1 [7]), (2, .close 1), (3, .read 0 5)])) 3 (.read 0 5)).2.ret = .ok 0 := by
  decide +kernel

/-- `5>&0 0>&1 1>&5 5>&-`: input and output are exchanged. -/
def swap : List Redir := [.onto 0 5, .onto 1 0, .onto 5 1, .shut 5]

example : Plan.start.all swap 0 = some (1, true) ∧ Plan.start.all swap 1 = some (0, true) ∧ Plan.start.all swap 2 = some (2, false) ∧
    Plan.start.all swap 5 = none := by decide

/-- The redirections make sense at boot, and this is what they come to. -/
example : FitAll initTable .start swap ∧ Arranged initTable .start initTable ∧ Does 0 (swap.map fun r => (0, r.op)) swap ∧
    slot (run init (swap.map fun r => (0, r.op))) 0 0 = initTable 1 ∧ slot (run init (swap.map fun r => (0, r.op))) 0 1 = initTable 0 ∧
    slot (run init (swap.map fun r => (0, r.op))) 0 5 = none := by
  refine ⟨⟨⟨by decide, 0, false, _, rfl, rfl, nofun⟩, ⟨by decide, 1, false, _, rfl, rfl, nofun⟩, ⟨by decide, 0, true, _, rfl, rfl, nofun⟩,
    (by show 5 < 1024; decide), trivial⟩, start_arranged _, rfl, ?_, ?_, ?_⟩ <;> decide +kernel

/-- A close-on-exec pipe (descriptors 3 and 4) of which the write end is redirected to 1: after exec 1 is there, 3 and 4 are not. -/
example : slot (run init [(0, .pipe2 0o2000000#32), (0, .dup2 4 1), (0, .exec 2)]) 2 1 = some (.pipe 0 1#32) ∧
    slot (run init [(0, .pipe2 0o2000000#32), (0, .dup2 4 1)]) 0 4 = some (.pipe 0 0o2000001#32) ∧
    slot (run init [(0, .pipe2 0o2000000#32), (0, .dup2 4 1), (0, .exec 2)]) 2 3 = none ∧
    slot (run init [(0, .pipe2 0o2000000#32), (0, .dup2 4 1), (0, .exec 2)]) 2 4 = none := by
  decide +kernel

end Verif.Redirect
