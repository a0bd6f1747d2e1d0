import Verif.Mailbox
import Verif.NameConcWitness

/-!
# Handing over work under a name: theorems (C112)
-/

namespace Verif.Mailbox
open Verif.Fs Verif.Kernel Verif.Path Verif.Recovery

/-! ## Lemmas -/

/-- The invariant. -/
structure Ok (N : List Name) (x : Conf) : Prop where
  reach : Reach x.s
  good : ∀ n ∈ N, Good n
  nonroot : N ≠ []
  all : (x.posted = x.claimed.map Prod.snd ∧ ∀ k, ¬ Holds x.s N k) ∨
    ∃ k, x.posted = x.claimed.map Prod.snd ++ [k] ∧ Holds x.s N k

theorem link_returns {s : State} (hR : Reach s) {c : Nat} {cg : Cage} (hc : s.cages c = some cg) (p q : Str) (hq : cg.path q ≠ []) :
    (∃ e, (step s c (.link p q)).2.ret = .err e) ∨ (step s c (.link p q)).2.ret = .ok 0 := by
  by_cases hp : p = []
  · simp [step, hc, nonEmpty, hp, Out.r]
  by_cases hq' : q = []
  · simp [step, hc, nonEmpty, hp, hq', Out.r]
  obtain ⟨a, ha, -⟩ := place_exists_unique hR hc p
  obtain ⟨b, hb, -⟩ := place_exists_unique hR hc q
  rw [link_answer hR hc hp hq' ha hb]
  cases b with
  | root => exact absurd hb hq
  | _ =>
    cases a <;> simp only [linkAnswer] <;> repeat' split
    all_goals simp

theorem rename_returns {s : State} (hR : Reach s) {c : Nat} {cg : Cage} (hc : s.cages c = some cg) (p q : Str) :
    (∃ e, (step s c (.rename p q)).2.ret = .err e) ∨ (step s c (.rename p q)).2.ret = .ok 0 := by
  by_cases hp : p = []
  · simp [step, hc, nonEmpty, hp, Out.r]
  by_cases hq' : q = []
  · simp [step, hc, nonEmpty, hp, hq', Out.r]
  obtain ⟨a, ha, -⟩ := place_exists_unique hR hc p
  obtain ⟨b, hb, -⟩ := place_exists_unique hR hc q
  rw [rename_answer hR hc hp hq' ha hb]
  cases a <;> cases b <;> simp only [renameAnswer] <;> repeat' split
  all_goals simp

theorem rename_tame {s : State} (hR : Reach s) {c : Nat} {cg : Cage} (hc : s.cages c = some cg) {p q : Str} (hfree : ∀ j, ¬ Leads s cg q j) :
    Tame s c (.rename p q) := by
  simp only [Tame, hc]
  intro i par hr
  obtain ⟨par2, hr2, -⟩ := hR.inv.walk_missing hc hfree
  rw [hr] at hr2; cases hr2

theorem holds_fun {s : State} (hR : Reach s) {N : List Name} {j k : Nat} (h1 : Holds s N j) (h2 : Holds s N k) : j = k :=
  walk_fun hR.inv.fs.tree h1 h2

theorem object_leads {s : State} {cg : Cage} {p : Str} {d i : Nat} {n : Name} (h : At s cg p (.object d n i)) : Leads s cg p i := by
  obtain ⟨ps, e, w, ⟨nd, hnd, hk⟩, he⟩ := h
  unfold Leads; rw [e]
  exact w.snoc hnd (isDir_iff.2 hk) ((entry_iff hnd).1 he)

theorem free_leads {s : State} (hR : Reach s) {cg : Cage} {p : Str} {d : Nat} {n : Name} (h : At s cg p (.free d n)) (j : Nat) :
    ¬ Leads s cg p j := by
  obtain ⟨ps, e, w, -, hno⟩ := h
  intro hl
  unfold Leads at hl; rw [e] at hl
  obtain ⟨d', nd', a, b, -, e'⟩ := hl.split
  have := walk_fun hR.inv.fs.tree a w; subst this
  exact hno j ((entry_iff b).2 e')

theorem Next.ok {N : List Name} {x y : Conf} {m : Move} (h : Ok N x) (hf : Fair N x m) (hn : Next x m y) : Ok N y := by
  cases hn with
  | @posted c p q cg k hc hk hret =>
    obtain ⟨cg', hc', hq⟩ := hf
    rw [hc] at hc'; cases hc'
    have hR' : Reach (step x.s c (.link p q)).1 := .step c _ h.reach (by simp only [Tame, hc]) (by rw [hret]; simp)
    obtain ⟨d, n, d', n', i, nd, pd, a1, a2, a3, -⟩ := link_effect h.reach hc hret
    have hik : i = k := walk_fun h.reach.inv.fs.tree (object_leads a1) hk
    subst hik
    have hnone : ∀ j, ¬ Holds x.s N j := fun j hj => free_leads h.reach a2 j (by unfold Leads; rw [hq]; exact hj)
    have hnow : Holds (step x.s c (.link p q)).1 N i := by
      have := object_leads a3; unfold Leads at this; rw [hq] at this; exact this
    refine ⟨hR', h.good, h.nonroot, .inr ⟨i, ?_, hnow⟩⟩
    rcases h.all with ⟨e, -⟩ | ⟨j, -, hj⟩
    · rw [← e]
    · exact absurd hj (hnone j)
  | @notPosted c p q hret =>
    obtain ⟨cg, hc, hq⟩ := hf
    rcases link_returns h.reach hc p q (by rw [hq]; exact h.nonroot) with ⟨e, he⟩ | he
    · have hR' : Reach (step x.s c (.link p q)).1 := .step c _ h.reach (by simp only [Tame, hc]) (by rw [he]; simp)
      have hk := fun k => failed_call_keeps_paths h.reach (op := .link p q) rfl he rootIno k N
      refine ⟨hR', h.good, h.nonroot, ?_⟩
      simp only [Holds, hk]; exact h.all
    · exact absurd he hret
  | @claimed c p q cg k hc hk hret =>
    obtain ⟨cg', hc', hp, hfree⟩ := hf
    rw [hc] at hc'; cases hc'
    have hR' : Reach (step x.s c (.rename p q)).1 := .step c _ h.reach (rename_tame h.reach hc hfree) (by rw [hret]; simp)
    obtain ⟨-, hgone, -⟩ := rename_effect_partial h.reach hc hfree hk hret
    have hh : Holds x.s N k := by unfold Leads at hk; rw [hp] at hk; exact hk
    refine ⟨hR', h.good, h.nonroot, .inl ⟨?_, fun j hj => hgone j (by unfold Leads; rw [hp]; exact hj)⟩⟩
    rcases h.all with ⟨-, e⟩ | ⟨j, e, hj⟩
    · exact absurd hh (e k)
    · have := holds_fun h.reach hj hh; subst this
      simp [e]
  | @notClaimed c p q hret =>
    obtain ⟨cg, hc, hp, hfree⟩ := hf
    rcases rename_returns h.reach hc p q with ⟨e, he⟩ | he
    · have hR' : Reach (step x.s c (.rename p q)).1 := .step c _ h.reach (rename_tame h.reach hc hfree) (by rw [he]; simp)
      have hk := fun k => failed_call_keeps_paths h.reach (op := .rename p q) rfl he rootIno k N
      refine ⟨hR', h.good, h.nonroot, ?_⟩
      simp only [Holds, hk]; exact h.all
    · exact absurd he hret
  | @other c op =>
    obtain ⟨ht, hnp, hq⟩ := hf
    have hR' : Reach (step x.s c op).1 := .step c _ h.reach ht hnp
    have hk : ∀ k, Holds (step x.s c op).1 N k ↔ Holds x.s N k := fun k =>
      ⟨names_made_partial h.reach ht h.good (fun q hm => hq q (by simp [hm])),
        names_kept_partial h.reach ht h.good (fun q hm => hq q (by simp [hm]))⟩
    refine ⟨hR', h.good, h.nonroot, ?_⟩
    simp only [hk]; exact h.all

theorem Start.ok {N : List Name} {x : Conf} (h : Start N x) : Ok N x :=
  ⟨h.reach, h.good, by rintro rfl; exact h.missing _ (.here _), .inl ⟨by simp [h.none_posted, h.none_claimed], h.missing⟩⟩

theorem Runs.ok {N : List Name} {x y : Conf} {ms : List Move} (hr : Runs N x ms y) (h : Ok N x) : Ok N y := by
  induction hr with
  | nil => exact h
  | cons hf hn _ ih => exact ih (hn.ok h hf)

/-! ## Theorems -/

/-- C112.  **Every job posted is claimed once or is still there**, whatever happens in whatever order: what was claimed, in order, followed by what is
at the name now, is what was posted, in order; no worker gets a job that was not posted or that another one got.  Partial: calls come one after the
other (`claim_two_violated`), and a worker's own name is free (see `rename_overwrite_violated`). -/
theorem mail_exact_partial {N : List Name} {x y : Conf} {ms : List Move} (h : Start N x) (hr : Runs N x ms y) :
    (∀ k, Holds y.s N k → y.posted = y.claimed.map Prod.snd ++ [k]) ∧ ((∀ k, ¬ Holds y.s N k) → y.posted = y.claimed.map Prod.snd) := by
  have ok := hr.ok h.ok
  rcases ok.all with ⟨e, hno⟩ | ⟨k, e, hk⟩
  · exact ⟨fun k hk => absurd hk (hno k), fun _ => e⟩
  · exact ⟨fun j hj => by rw [holds_fun ok.reach hj hk]; exact e, fun hno => absurd hk (hno k)⟩

/-- C112.  So, if no object is posted twice, no two claims get the same object. -/
theorem mail_once_partial {N : List Name} {x y : Conf} {ms : List Move} (h : Start N x) (hr : Runs N x ms y) (hd : y.posted.Nodup)
    {a b : Nat} {u v : Nat × Nat} (ha : y.claimed[a]? = some u) (hb : y.claimed[b]? = some v) (hk : u.2 = v.2) : a = b := by
  have hd' : (y.claimed.map Prod.snd).Nodup := by
    rcases (hr.ok h.ok).all with ⟨e, -⟩ | ⟨k, e, -⟩
    · rw [← e]; exact hd
    · rw [e] at hd; exact (List.nodup_append.1 hd).1
  obtain ⟨la, ea⟩ := List.getElem?_eq_some_iff.1 ha
  obtain ⟨lb, eb⟩ := List.getElem?_eq_some_iff.1 hb
  have hp := List.pairwise_iff_getElem.1 hd'
  rcases Nat.lt_trichotomy a b with hlt | rfl | hlt
  · exact (hp a b (by simpa using la) (by simpa using lb) hlt (by simp [ea, eb, hk])).elim
  · rfl
  · exact (hp b a (by simpa using lb) (by simpa using la) hlt (by simp [ea, eb, hk])).elim

/-- C112.  A worker that tries when a job is there gets it, whoever it is, if its own name is free and in the same directory: the job is then what its
own name leads to, with the content it had, and the name that all look at is free. -/
theorem mail_claim_partial {N : List Name} {x y : Conf} {ms : List Move} (h : Start N x) (hr : Runs N x ms y) {k : Nat} (hk : Holds y.s N k)
    {c : Nat} {cg : Cage} (hc : y.s.cages c = some cg) {p q : Str} (hp0 : p ≠ []) (hq0 : q ≠ []) (hp : cg.path p = N)
    (hfree : ∀ j, ¬ Leads y.s cg q j) {ps : List Name} {o n : Name} (hN : N = ps ++ [o]) (hq : cg.path q = ps ++ [n]) :
    ∃ z, Next y (.claim c p q) z ∧ z.claimed = y.claimed ++ [(c, k)] ∧ z.posted = z.claimed.map Prod.snd ∧ Leads z.s cg q k ∧
      bytes z.s k = bytes y.s k ∧ ∀ j, ¬ Holds z.s N j := by
  have ok := hr.ok h.ok
  have hl : Leads y.s cg p k := by unfold Leads; rw [hp]; exact hk
  have hret : (step y.s c (.rename p q)).2.ret = .ok 0 := by
    have hk' := hk; unfold Holds at hk'; rw [hN] at hk'
    obtain ⟨d, nd, w, -⟩ := hk'.split
    exact (rename_succeeds_partial ok.reach hc hfree).2 ⟨hp0, hq0, ps, ps, o, n, d, k, by rw [hp, hN], hq, w, w, hl⟩
  obtain ⟨e1, e2, -, e3⟩ := rename_effect_partial ok.reach hc hfree hl hret
  refine ⟨_, .claimed hc hl hret, rfl, ?_, e1, (e3 k).1.2, fun j hj => e2 j (by unfold Leads; rw [hp]; exact hj)⟩
  simp [(mail_exact_partial h hr).1 k hk]

/-- C112.  A worker that tries when nothing is there is told so by an error, and nothing changes. -/
theorem mail_empty_partial {N : List Name} {x y : Conf} {ms : List Move} (h : Start N x) (hr : Runs N x ms y) (hno : ∀ k, ¬ Holds y.s N k)
    {c : Nat} {cg : Cage} (hc : y.s.cages c = some cg) {p q : Str} (hp : cg.path p = N) (hfree : ∀ j, ¬ Leads y.s cg q j) :
    (∃ e, (step y.s c (.rename p q)).2.ret = .err e) ∧ (step y.s c (.rename p q)).1 = y.s := by
  have ok := hr.ok h.ok
  have he : ∃ e, (step y.s c (.rename p q)).2.ret = .err e := by
    rcases rename_returns ok.reach hc p q with he | he
    · exact he
    · obtain ⟨-, -, _, _, _, _, _, i, -, -, -, -, hl⟩ := (rename_succeeds_partial ok.reach hc hfree).1 he
      unfold Leads at hl; rw [hp] at hl
      exact absurd hl (hno i)
  refine ⟨he, ?_⟩
  obtain ⟨e, he⟩ := he
  simp only [step, hc] at he ⊢
  exact nonEmpty_err (nonEmpty_err (onFs_err (rename_err _ _ _))) he

/-- C112.  Nobody can post over a job that is still there: it is an error, and nothing changes. -/
theorem mail_full_partial {N : List Name} {x y : Conf} {ms : List Move} (h : Start N x) (hr : Runs N x ms y) {k : Nat} (hk : Holds y.s N k)
    {c : Nat} {cg : Cage} (hc : y.s.cages c = some cg) {p q : Str} (hq : cg.path q = N) :
    (∃ e, (step y.s c (.link p q)).2.ret = .err e) ∧ (step y.s c (.link p q)).1 = y.s := by
  have ok := hr.ok h.ok
  have he : ∃ e, (step y.s c (.link p q)).2.ret = .err e := by
    rcases link_returns ok.reach hc p q (by rw [hq]; exact ok.nonroot) with he | he
    · exact he
    · obtain ⟨_, _, _, _, _, _, _, -, a2, -⟩ := link_effect ok.reach hc he
      exact absurd (by unfold Leads; rw [hq]; exact hk) (free_leads ok.reach a2 k)
  refine ⟨he, ?_⟩
  obtain ⟨e, he⟩ := he
  simp only [step, hc] at he ⊢
  exact nonEmpty_err (nonEmpty_err (onFs_err (link_err _ _ _))) he

/-- C112.  What a poster puts there is what it had under its own name, with the content it had. -/
theorem mail_post_partial {N : List Name} {x y z : Conf} {ms : List Move} (h : Start N x) (hr : Runs N x ms y) {c : Nat} {cg : Cage}
    (hc : y.s.cages c = some cg) {p q : Str} (hq : cg.path q = N) {k : Nat} (hk : Leads y.s cg p k)
    (hok : (step y.s c (.link p q)).2.ret = .ok 0) (hz : Next y (.post c p q) z) :
    z.posted = y.posted ++ [k] ∧ Holds z.s N k ∧ bytes z.s k = bytes y.s k := by
  have ok := hr.ok h.ok
  cases hz with
  | notPosted hne => exact absurd hok hne
  | @posted _ _ _ cg' k' hc' hk' _ =>
    rw [hc] at hc'; cases hc'
    have := walk_fun ok.reach.inv.fs.tree hk' hk; subst this
    obtain ⟨d, n, d', n', i, nd, pd, a1, -, a3, -, -, -, -, -, -, -, hb, -⟩ := link_effect ok.reach hc hok
    have := walk_fun ok.reach.inv.fs.tree (object_leads a1) hk; subst this
    refine ⟨rfl, ?_, hb _⟩
    have := object_leads a3; unfold Leads at this; rw [hq] at this; exact this

/-- C112.  After a crash and the next start the job that waited is waiting, and no other. -/
theorem mail_crash_partial {N : List Name} {x y : Conf} {ms : List Move} (h : Start N x) (hr : Runs N x ms y) {D : Nat → Prop} {b : Snap}
    (hs : Sess D b y.s) : ∃ s1, reboot (diskOf b y.s.fs) = some s1 ∧
      (∀ k, Holds s1 N k → y.posted = y.claimed.map Prod.snd ++ [k]) ∧ ((∀ k, ¬ Holds s1 N k) → y.posted = y.claimed.map Prod.snd) := by
  obtain ⟨s1, e, ht⟩ := crash_paths_partial hs
  have hk : ∀ k, Holds s1 N k ↔ Holds y.s N k := fun k => (ht N h.good k).1
  refine ⟨s1, e, ?_⟩
  simp only [hk]
  exact mail_exact_partial h hr

/-- C112, violated: two threads claim the same job at the same time, each with its own name; both are told that they have it. -/
theorem claim_two_violated : ∃ ms : List NameConc.Act, let s := NameConc.run NameConc.s0 ms
    ms.filter (fun a => match a with | .start _ _ => true | _ => false) =
      [.start 0 (.rename NameConc.df NameConc.dx), .start 1 (.rename NameConc.df NameConc.dh)] ∧
    NameConc.dx ≠ NameConc.dh ∧ s.dead = false ∧ s.res 0 = some (.ret (.ok 0)) ∧ s.res 1 = some (.ret (.ok 0)) := by
  obtain ⟨h1, -, h2, h3, -⟩ := NameConc.double_rename_violated
  exact ⟨_, by decide +kernel, by decide +kernel, h1, h2, h3⟩

end Verif.Mailbox
