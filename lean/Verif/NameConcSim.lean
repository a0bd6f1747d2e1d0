import Verif.NameConcClose

/-! Every action of a disciplined schedule is followed by the specification. -/

namespace Verif.NameConc
open Verif.Path Verif.Fs

variable {N : Nat} {s : State} {A : Abs} {t : Nat} {c : Call}

theorem sim_go (R : Rel N s A) (hal : Allowed s (.go t)) : Sim N s A t (go s t) := by
  rcases Option.eq_none_or_eq_some (A.pend t) with hp | ⟨⟨c, o⟩, hp⟩
  · have hpc := R.rest t hp
    have hgo : go s t = s := by simp only [go, hpc]
    rw [hgo]
    refine ⟨A, ?_, R⟩
    have : s.call t = none := by rw [R.call, hp]; rfl
    rw [show obs s s t = [] by simp only [obs, this]]
    exact .refl A
  · cases hpc : s.pc t with
    | idle => have h := R.thr t c o hp; rw [hpc] at h; exact h.elim
    | walk => exact sim_walk R hp hpc
    | alloc p par new =>
      have h := R.thr t c o hp; rw [hpc] at h
      obtain ⟨rfl, hm, hw⟩ := h
      have hfr := R.frs.step (go_ok s t)
      have hgo : go s t = s.to t { s.fs with next := s.fs.next + 1 } (.enter p par new s.fs.next) := by simp only [go, hpc]
      rw [hgo] at hfr ⊢
      exact sim_alloc R hp hpc hm hw hfr
    | enter => exact sim_enter R hp hpc
    | store => exact sim_store R hp hpc
    | log => exact sim_log R hp hpc
    | logw => exact sim_logw R hp hpc
    | openObj => exact sim_openObj R hp hpc
    | get => exact sim_get R hp hpc
    | openGet => exact sim_openGet R hp hpc
    | chmodDo => exact sim_chmodDo R hp hpc
    | linkInc => exact sim_linkInc R hp hpc
    | linkEnter => exact sim_linkEnter R hp hpc
    | linkUndo => exact sim_linkUndo R hp hpc
    | unlinkDec => exact sim_unlinkDec R hp hpc hal
    | unlinkRemove => exact sim_unlinkRemove R hp hpc
    | unlinkReap => exact sim_unlinkReap R hp hpc
    | unlinkDom => exact sim_unlinkDom R hp hpc
    | rmdirPar => exact sim_rmdirPar R hp hpc
    | rmdirNode => exact sim_rmdirNode R hp hpc hal
    | rmdirRemove => exact sim_rmdirRemove R hp hpc
    | rmdirReap => exact sim_rmdirReap R hp hpc
    | renameEdit => exact sim_renameEdit R hp hpc hal
    | renameDom => exact sim_renameDom R hp hpc
    | closeDec => exact sim_closeDec R hp hpc
    | closeReap => exact sim_closeReap R hp hpc

/-- A descriptor is given up by a close that begins. -/
theorem InoRel.giveUp {σ : Nat → Sig} {ox oy : Option Inode} {fo fo' : Option Nat} {dk dk' : Option (List UInt8)} {h h' : Nat}
    (r : InoRel N σ ox oy fo fo' dk dk' h h') (h0 : σ t = {}) (ht : t < N) (hp : 0 < h) :
    InoRel N (upd σ t { cls := true }) ox oy fo fo' dk dk' (h - 1) h' := by
  have t1 := tot_upd ht σ { cls := true } Sig.opn
  have t2 := tot_upd ht σ { cls := true } Sig.cls
  rw [h0] at t1 t2
  simp only [Bool.toNat_true, Bool.toNat_false] at t1 t2
  have hh := r.held
  have a1 : ∀ u, (upd σ t { cls := true } u).fresh = (σ u).fresh := fun u => by by_cases e : u = t <;> simp [e, h0]
  have a2 : ∀ u, (upd σ t { cls := true } u).doom = (σ u).doom := fun u => by by_cases e : u = t <;> simp [e, h0]
  have a3 : ∀ u, (upd σ t { cls := true } u).opn = (σ u).opn := fun u => by by_cases e : u = t <;> simp [e, h0]
  constructor
  · intro u nd hu; rw [a1] at hu; exact r.fresh u nd hu
  · intro u b hu; rw [a2] at hu; exact r.doom u b hu
  · intro u v b b' hu hv; rw [a2] at hu hv; exact r.doom1 u v b b' hu hv
  · intro hy hu; exact r.gone hy (fun u => by rw [← a2]; exact hu u)
  · intro nd' hy hu
    obtain ⟨nd, e1, e2⟩ := r.there nd' hy (fun u => by rw [← a1]; exact hu u)
    exact ⟨nd, e1, e2.sig (by rw [h0]) (by rw [h0]) (by rw [h0]) ht⟩
  · intro u hu; rw [a3] at hu; exact r.opn u hu
  · intro hu; exact r.data (fun u => by rw [← a2, ← a3]; exact hu u)
  · omega

theorem Apart.symm {a b : Call} (h : Apart a b) : Apart b a := ⟨h.2, h.1⟩

theorem walk_nil {g : Fs} (T : Tree g.inodes g.next) : g.walk [] = some (some rootIno, none) := by
  obtain ⟨nd, h, -⟩ := T.root
  simp only [Fs.walk, h, walkFrom]

theorem ti_begin {g : Fs} (T : Tree g.inodes g.next) (hl : ∀ old new, c = .link old new → new ≠ []) : TI g c none (begin c) := by
  cases c <;> simp only [begin, TI, GoalOk] <;> try exact ⟨trivial, ⟨[], rfl, walk_nil T⟩, trivial⟩
  · exact ⟨trivial, ⟨[], rfl, walk_nil T⟩, trivial, hl _ _ rfl⟩
  · exact ⟨trivial, trivial⟩

theorem sim_start (R : Rel N s A) (ht : t < N) (hal : Allowed s (.start t c)) :
    ∃ A', A.Runs (observe s (.start t c)) A' ∧ Rel N (step s (.start t c)) A' := by
  by_cases hpc : s.pc t = .idle
  · have hp : A.pend t = none := by
      rcases Option.eq_none_or_eq_some (A.pend t) with hp | ⟨⟨c', o⟩, hp⟩
      · exact hp
      · have h := R.thr t c' o hp; rw [hpc] at h; exact h.elim
    have hcall : s.call t = none := by rw [R.call, hp]; rfl
    obtain ⟨hg, hap, hx⟩ := hal
    have hl : ∀ old new, c = .link old new → new ≠ [] := by rintro old new rfl; exact hx
    have hst : step s (.start t c) = s.begin t c := by
      simp only [step, R.alive, hpc, if_true, Bool.false_eq_true, if_false]
      split
      · exact absurd rfl (hl _ _ rfl)
      · rfl
    have hfr := (R.frs.act (.start t c)).1
    have hob : observe s (.start t c) = [.call t c] := by
      simp only [observe, hst, State.begin, upd_same, hcall]
      rfl
    rw [hob]
    rw [hst] at hfr ⊢
    refine ⟨{ A with pend := upd A.pend t (some (c, none)) }, .call hp (.refl _), ?_⟩
    constructor
    · exact R.alive
    · exact R.inv
    · exact hfr
    · intro u hu
      have : u ≠ t := by omega
      exact (upd_ne _ _ this).trans (R.idle u hu)
    · exact R.next
    · intro u
      simp only [State.begin]
      by_cases e : u = t
      · subst e; simp
      · simp only [upd_ne _ _ e]; exact R.call u
    · intro u v c1 c2 huv h1 h2
      simp only [State.begin] at h1 h2
      by_cases e : u = t
      · subst e
        rw [upd_same] at h1; cases h1
        rw [upd_ne _ _ huv.symm] at h2
        exact hap v c2 huv.symm h2
      · rw [upd_ne _ _ e] at h1
        by_cases e' : v = t
        · subst e'
          rw [upd_same] at h2; cases h2
          exact (hap u c1 e h1).symm
        · rw [upd_ne _ _ e'] at h2
          exact R.apart u v c1 c2 huv h1 h2
    · intro u c1 h1
      simp only [State.begin] at h1
      by_cases e : u = t
      · subst e; rw [upd_same] at h1; cases h1; exact hg
      · rw [upd_ne _ _ e] at h1; exact R.good u c1 h1
    · intro u hu
      by_cases e : u = t
      · subst e; simp at hu
      · dsimp only at hu
        rw [upd_ne _ _ e] at hu
        exact (upd_ne _ _ e).trans (R.rest u hu)
    · intro u c1 o1 hu
      dsimp only at hu
      simp only [State.begin]
      by_cases e : u = t
      · subst e; rw [upd_same] at hu ⊢; cases hu; exact ti_begin R.inv.tree hl
      · rw [upd_ne _ _ e] at hu ⊢; exact R.thr u c1 o1 hu
    · intro i
      have e : (fun u => sig ((s.begin t c).pc u) i) = upd (fun u => sig (s.pc u) i) t (sig (begin c) i) := by
        funext u
        simp only [State.begin]
        by_cases e : u = t
        · subst e; simp
        · simp [e]
      rw [e]
      have hz : sig (s.pc t) i = {} := by rw [hpc]; rfl
      cases hc : c with
      | close k =>
        subst hc
        simp only [State.begin, begin, sig]
        by_cases e : i = k
        · subst e
          rw [upd_same, decide_eq_true rfl]
          exact (R.ino i).giveUp hz ht hx
        · rw [upd_ne _ _ e]
          exact (R.ino i).keep (by rw [hz]; simp [Ne.symm e])
      | _ => exact (R.ino i).keep (by rw [hz]; rfl)
  · have hst : step s (.start t c) = s := by
      simp only [step, R.alive, hpc, if_false, Bool.false_eq_true]
    refine ⟨A, ?_, hst.symm ▸ R⟩
    simp only [observe, hst, if_true]
    exact .refl A

theorem sim_step (R : Rel N s A) {a : Act} (ha : a.tid < N) (hal : Allowed s a) :
    ∃ A', A.Runs (observe s a) A' ∧ Rel N (step s a) A' := by
  cases a with
  | start t c => exact sim_start R ha hal
  | go t =>
    obtain ⟨A', h1, h2⟩ := sim_go R hal
    refine ⟨A', by rw [observe_go R.alive]; exact h1, ?_⟩
    simp only [step, R.alive]; exact h2

theorem sim_run {as : List Act} (R : Rel N s A) (hN : ∀ a ∈ as, a.tid < N) (hal : Disciplined s as) :
    ∃ A', A.Runs (trace s as) A' ∧ Rel N (run s as) A' := by
  induction as generalizing s A with
  | nil => exact ⟨A, .refl A, R⟩
  | cons a as ih =>
    obtain ⟨A1, h1, R1⟩ := sim_step R (hN a (List.mem_cons_self ..)) hal.1
    obtain ⟨A2, h2, R2⟩ := ih R1 (fun b hb => hN b (List.mem_cons_of_mem _ hb)) hal.2
    exact ⟨A2, h1.trans h2, R2⟩

theorem tid_bound (as : List Act) : ∃ N, ∀ a ∈ as, a.tid < N := by
  induction as with
  | nil => exact ⟨0, fun _ h => by cases h⟩
  | cons a as ih =>
    obtain ⟨N, h⟩ := ih
    refine ⟨N + a.tid + 1, fun b hb => ?_⟩
    rcases List.mem_cons.1 hb with rfl | hb
    · omega
    · have := h b hb; omega

theorem ino_refl {x : Option Inode} {fo : Option Nat} {dk : Option (List UInt8)} {h : Nat}
    (hn : ∀ nd, x = some nd → (nd.ents.map Prod.fst).Nodup) : InoRel N (fun _ => {}) x x fo fo dk dk h h := by
  have z : ∀ w : Sig → Bool, w {} = false → tot N (fun _ => {}) w = 0 := fun w hw => tot_zero (fun _ => hw)
  constructor
  · intro _ _ h; cases h
  · intro _ _ h; cases h
  · intro _ _ _ _ h; cases h
  · intro h _; exact h
  · rintro nd rfl _
    exact ⟨nd, rfl, Same.refl (hn nd rfl) (fun _ => ⟨rfl, rfl, rfl⟩)⟩
  · intro _ h; cases h
  · intro _; exact ⟨rfl, rfl⟩
  · rw [z _ rfl, z _ rfl]; rfl

theorem rel_init {fs : Fs} {held : Nat → Nat} (h : FsInv fs held) : Rel N (init fs held) ⟨fs, held, fun _ => none⟩ := by
  constructor
  · rfl
  · exact h
  · exact Fresh.init held (fun i nd hi => h.tree.bound hi)
  · intro _ _; rfl
  · rfl
  · intro _; rfl
  · intro _ _ _ _ _ h; cases h
  · intro _ _ h; cases h
  · intro _ _; rfl
  · intro _ _ _ h; cases h
  · intro i
    exact ino_refl (fun nd hnd => h.tree.nodup hnd)

theorem nodup_fst {l : List (Name × Nat)} (h : (l.map Prod.fst).Nodup) : l.Nodup :=
  List.Pairwise.of_map Prod.fst (fun _ _ h e => h (by rw [e])) h

theorem Rel.same (R : Rel N s A) (hi : ∀ t, s.pc t = .idle) : SameFs s.fs A.fs ∧ s.held = A.held := by
  have z : ∀ i, (fun t => sig (s.pc t) i) = fun _ => {} := fun i => funext (fun t => by rw [hi t]; rfl)
  have r : ∀ i, InoRel N (fun _ => {}) (s.fs.inodes i) (A.fs.inodes i) (s.fs.fobj i) (A.fs.fobj i)
    (s.fs.disk i) (A.fs.disk i) (s.held i) (A.held i) := fun i => z i ▸ R.ino i
  have t0 : ∀ w : Sig → Bool, w {} = false → tot N (fun _ => {}) w = 0 := fun w hw => tot_zero (fun _ => hw)
  refine ⟨⟨R.next, fun i => ((r i).data (fun _ => ⟨rfl, rfl⟩)).1, fun i => ((r i).data (fun _ => ⟨rfl, rfl⟩)).2, fun i => ⟨fun h => ?_, fun h => ?_⟩,
    fun i x y hx hy => ?_⟩, funext (fun i => ?_)⟩
  · rcases Option.eq_none_or_eq_some (A.fs.inodes i) with hy | ⟨y, hy⟩
    · exact hy
    · obtain ⟨x, hx, -⟩ := (r i).there y hy (fun _ => rfl)
      rw [h] at hx; cases hx
  · exact (r i).gone h (fun _ => rfl)
  · obtain ⟨x', hx', S⟩ := (r i).there y hy (fun _ => rfl)
    rw [hx] at hx'; cases hx'
    have hl := S.link
    rw [t0 _ rfl, t0 _ rfl, t0 _ rfl] at hl
    constructor
    · refine (List.perm_ext_iff_of_nodup (nodup_fst S.nodup) (nodup_fst (R.inv.tree.nodup hy))).2 (fun ⟨n, k⟩ => ?_)
      rw [S.mem]
      simp
    · have e1 := S.kind; have e2 := S.mode; have e3 := S.size; have e4 := S.ref
      cases x; cases y
      simp_all
  · have := (r i).held
    rw [t0 _ rfl, t0 _ rfl] at this
    omega

end Verif.NameConc
