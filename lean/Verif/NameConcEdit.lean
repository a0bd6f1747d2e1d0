import Verif.NameConcMake

/-! Steps of the walk, of chmod and of link. -/

namespace Verif.NameConc
open Verif.Path Verif.Fs

variable {N : Nat} {s : State} {A : Abs} {t : Nat} {c : Call}

theorem goal_names {g : Fs} {p : List Name} {gl : Goal} (h : GoalOk g c p gl) : p ∈ c.names := by
  cases gl <;> simp only [GoalOk] at h
  case linkNew => obtain ⟨rfl, -⟩ := h; simp [Call.names]
  case linkOld => obtain ⟨rfl, -⟩ := h; simp [Call.names]
  case renameNew => obtain ⟨rfl, -⟩ := h; simp [Call.names]
  all_goals (subst h; simp [Call.names])

theorem walk_stuck {g : Fs} {d : List Name} {n : Name} (h : g.walk (d ++ [n]) = some (none, none)) (e : List Name) :
    g.walk (d ++ n :: e) = some (none, none) := by
  rw [show d ++ n :: e = (d ++ [n]) ++ e by simp]
  generalize d ++ [n] = q at h
  induction e generalizing q with
  | nil => simpa using h
  | cons m e ih =>
    rw [show q ++ m :: e = (q ++ [m]) ++ e by simp]
    exact ih _ (by rw [walk_snoc h])

theorem sim_walk (R : Rel N s A) {o : Option Out} {p rest : List Name} {cur prev : Option Nat} {gl : Goal}
    (hp : A.pend t = some (c, o)) (hpc : s.pc t = .walk p rest cur prev gl) : Sim N s A t (go s t) := by
  have hfr := R.frs.step (go_ok s t)
  have hct := R.callOf hp
  obtain ⟨rfl, ⟨done, rfl, hw⟩, hg⟩ : TI A.fs c o (.walk p rest cur prev gl) := by have h := R.thr t c o hp; rw [hpc] at h; exact h
  have hpn := goal_names hg
  have hsig : ∀ (a b : List Name) (x y : Option Nat) i, sig (.walk a b x y gl) i = sig (.walk [] [] none none gl) i := by
    intro a b x y i; cases gl <;> rfl
  cases rest with
  | nil =>
    simp only [go, hpc] at hfr ⊢
    exact sim_arrive R hp (by simpa using hw) hg (fun i => by rw [hpc, hsig, hsig (done ++ []) []]) hfr
  | cons n ns =>
    cases cur with
    | none =>
      simp only [go, hpc] at hfr ⊢
      exact sim_arrive R hp (walk_stuck (walk_snoc hw) ns) hg (fun i => by rw [hpc, hsig, hsig (done ++ _) []]) hfr
    | some i =>
      have hl : Leads A.fs done i := ⟨⟨_, hw⟩⟩
      have hpre : done <+: done ++ n :: ns := List.prefix_append _ _
      have own1 : (sig (s.pc t) i).fresh = none := by rw [hpc, hsig]; cases gl <;> rfl
      obtain ⟨x, y, h1, h2, h3⟩ := R.node hct hpn hpre hl own1
      have hk := kind_dir h3.kind
      have hsn := walk_snoc (n := n) hw
      simp only [h2] at hsn
      cases hd : x.isDir with
      | false =>
        have hgo : go s t = arrive s t (done ++ n :: ns) (none, none) gl := by simp only [go, hpc, h1, hd]; rfl
        rw [hgo] at hfr ⊢
        refine sim_arrive R hp (walk_stuck ?_ ns) hg (fun i => by rw [hpc, hsig, hsig (done ++ _) []]) hfr
        rw [hsn, ← hk, hd]; rfl
      | true =>
        have hgo : go s t = s.to t s.fs (.walk (done ++ n :: ns) ns (entGet x.ents n) (some i) gl) := by simp only [go, hpc, h1, hd]; rfl
        rw [hgo] at hfr ⊢
        refine .move R hp (.refl _) hfr (fun i => by rw [hpc, hsig, hsig _ (n :: ns)]) ⟨rfl, ⟨done ++ [n], by simp, ?_⟩, hg⟩
        rw [hsn, ← hk, hd]
        have hyd : y.isDir := by rw [← hk]; exact hd
        have := R.entry hct hpn (d := done) (n := n) (by simp) hl h2 hyd
          (fun k => by rw [hpc, hsig]; cases gl <;> simp [sig]) (by rw [hpc, hsig]; cases gl <;> simp [sig]) h3
        rw [this]; rfl

theorem sim_chmodDo (R : Rel N s A) {o : Option Out} {p : List Name} {i : Nat} {m : BitVec 32}
    (hp : A.pend t = some (c, o)) (hpc : s.pc t = .chmodDo p i m) : Sim N s A t (go s t) := by
  have hfr := R.frs.step (go_ok s t)
  have hct := R.callOf hp
  have htN := R.lt hp
  obtain ⟨rfl, rfl, hm, hl⟩ : TI A.fs c o (.chmodDo p i m) := by have h := R.thr t c o hp; rw [hpc] at h; exact h
  have hpn : p ∈ (Call.chmod p m).names := by simp [Call.names]
  have own : ∀ j, sig (s.pc t) j = {} := fun j => by rw [hpc]; rfl
  obtain ⟨x, y, h1, h2, h3⟩ := R.node hct hpn List.prefix_rfl hl (by rw [own])
  have hdt := R.data hct hpn List.prefix_rfl hl (by rw [own])
  have hgo : go s t = s.to t (s.fs.set i (some { x with mode := (x.mode &&& ~~~sIRWXA) ||| m }))
      (.log (if x.isSock then [] else [i]) (.ret (.ok 0))) := by simp only [go, hpc, h1]
  rw [hgo] at hfr ⊢
  obtain ⟨g', ha, e1, e2, e3, e4⟩ : ∃ g', atomic A.fs (.chmod p m) = some (g', .ret (.ok 0)) ∧
      g'.inodes = upd A.fs.inodes i (some { y with mode := (y.mode &&& ~~~sIRWXA) ||| m }) ∧ g'.next = A.fs.next ∧
      g'.fobj = A.fs.fobj ∧ g'.disk = A.fs.disk := by
    obtain ⟨⟨b, hw⟩⟩ := hl
    refine ⟨(A.fs.chmod p m).1, ?_, ?_⟩
    · simp only [atomic, Fs.chmod, hw, Fs.chmodIno, hm, h2]; rfl
    · simp only [Fs.chmod, hw, Fs.chmodIno, hm, h2, if_true]
      split <;> exact ⟨rfl, rfl, rfl, rfl⟩
  refine .commitTo R hp hfr ha (atomic_inv R.inv (R.good t _ hct) trivial ha) (R.next.trans e2.symm) ⟨?_⟩ rfl ?_
  · intro q j nd hq hcl hlj hj
    by_cases e : j = i
    · subst e; rw [h2] at hj; cases hj
      refine ⟨_, (congrFun e1 _).trans (upd_same _ _ _), rfl, fun hd => ?_⟩
      have := uniq_dir R.tree hq (R.good t _ hct p hpn) hlj hl h2 hd
      subst this
      exact absurd List.prefix_rfl (hcl q (by simp [Call.changes]))
    · exact ⟨nd, by rw [e1, upd_ne _ _ e]; exact hj, rfl, fun _ => ⟨rfl, fun _ _ _ => rfl⟩⟩
  · intro j
    rw [e1, e3, e4]
    by_cases e : j = i
    · subst e
      simp only [Fs.set, upd_same, holds]
      refine R.put htN hct hpn List.prefix_rfl hl (by rw [own]) (by rw [own]) rfl rfl rfl rfl ?_ hdt.1 hdt.2 (Nat.add_comm _ _)
      exact Same.attrs h3 htN (by rw [own]; rfl) (by rw [own]; rfl) h3.kind (by dsimp only; rw [h3.mode]) h3.size
          h3.ref rfl rfl rfl (by rw [own]; rfl) (fun _ => ⟨rfl, rfl⟩)
    · simp only [Fs.set, upd_ne _ _ e, holds]
      exact (R.ino j).keep (by rw [own]; rfl)

theorem sim_linkInc (R : Rel N s A) {o : Option Out} {old new : List Name} {i : Nat}
    (hp : A.pend t = some (c, o)) (hpc : s.pc t = .linkInc old new i) : Sim N s A t (go s t) := by
  have hfr := R.frs.step (go_ok s t)
  have hct := R.callOf hp
  have htN := R.lt hp
  obtain ⟨rfl, rfl, hne, hl⟩ : TI A.fs c o (.linkInc old new i) := by have h := R.thr t c o hp; rw [hpc] at h; exact h
  have hpn : old ∈ (Call.link old new).names := by simp [Call.names]
  have own : ∀ j, sig (s.pc t) j = {} := fun j => by rw [hpc]; rfl
  obtain ⟨x, y, h1, h2, h3⟩ := R.node hct hpn List.prefix_rfl hl (by rw [own])
  have hdt := R.data hct hpn List.prefix_rfl hl (by rw [own])
  have hk := kind_dir h3.kind
  cases hd : x.isDir with
  | true =>
    have hgo : go s t = s.fin t s.fs (.ret (.err .EPERM)) := by simp only [go, hpc, h1, hd]; rfl
    rw [hgo] at hfr ⊢
    obtain ⟨name, hlast⟩ : ∃ name, new.getLast? = some name := by
      cases h : new.getLast? with
      | none => simp at h; exact absurd h hne
      | some x => exact ⟨x, rfl⟩
    obtain ⟨⟨b, hw⟩⟩ := hl
    exact .fail' R hp hfr own (by simp only [atomic, Fs.link, hlast, hw, h2, ← hk, hd]; rfl) rfl
  | false =>
    have hgo : go s t = s.to t (s.fs.set i (some { x with link := x.link + 1 })) (.walk new new (some rootIno) none (.linkNew i old)) := by
      simp only [go, hpc, h1, hd]; rfl
    rw [hgo] at hfr ⊢
    have hyd : y.isDir = false := by rw [← hk]; exact hd
    obtain ⟨r, hr, -⟩ := R.tree.root
    refine .stay R hp hfr rfl ⟨rfl, ⟨[], rfl, by simp [Fs.walk, hr, walkFrom]⟩, rfl, hne, hl, y, h2, hyd⟩ ?_
    intro j
    by_cases e : j = i
    · subst e
      rw [h2]
      simp only [Fs.set, upd_same]
      refine R.put htN hct hpn List.prefix_rfl hl (by rw [own]) (by rw [own]) rfl rfl rfl rfl ?_ hdt.1 hdt.2 (Nat.add_comm _ _)
      refine Same.attrs h3 htN (by rw [own]; rfl) (by rw [own]; rfl) h3.kind h3.mode h3.size h3.ref rfl rfl rfl ?_ ?_
      · rw [own]; simp [sig]; omega
      · intro hdir; rw [Inode.isDir, hdir] at hyd; cases hyd
    · simp only [Fs.set, upd_ne _ _ e]
      refine (R.ino j).keep ?_
      rw [own]; simp [sig, Ne.symm e]

theorem sim_linkEnter (R : Rel N s A) {o : Option Out} {old new : List Name} {i par : Nat}
    (hp : A.pend t = some (c, o)) (hpc : s.pc t = .linkEnter old new i par) : Sim N s A t (go s t) := by
  have hfr := R.frs.step (go_ok s t)
  have hct := R.callOf hp
  have htN := R.lt hp
  obtain ⟨rfl, rfl, hpl, hw⟩ : TI A.fs c o (.linkEnter old new i par) := by have h := R.thr t c o hp; rw [hpc] at h; exact h
  have hon : old ∈ (Call.link old new).names := by simp [Call.names]
  have hpn : new ∈ (Call.link old new).names := by simp [Call.names]
  have hgood := R.good t _ hct new hpn
  obtain ⟨d, n, pd, hpe, hld, hpd, hdir, hx⟩ := walk_par hw
  have hgd : GoodPath d := by rw [hpe] at hgood; exact good_left hgood
  have hpre : d <+: new := by rw [hpe]; exact List.prefix_append _ _
  have hq' : d ++ [n] <+: new := by rw [hpe]; exact List.prefix_rfl
  obtain ⟨hl, y, hy, hyd⟩ := hpl
  have hne : i ≠ par := fun e => by subst e; rw [hy] at hpd; cases hpd; rw [hyd] at hdir; cases hdir
  have own : ∀ j, sig (s.pc t) j = { up := decide (i = j) } := fun j => by rw [hpc]; rfl
  obtain ⟨px, py, h1, h2, h3⟩ := R.node hct hpn hpre hld (by rw [own])
  rw [hpd] at h2; cases h2
  obtain ⟨x, y', g1, g2, g3⟩ := R.node hct hon List.prefix_rfl hl (by rw [own])
  rw [hy] at g2; cases g2
  have hlast : new.getLast? = some n := by rw [hpe]; simp
  have hpxd : px.isDir := by rw [kind_dir h3.kind]; exact hdir
  have hgo : go s t = s.to t (s.fs.set par (some { px with ents := entPut px.ents n i, link := px.link + 1 }))
      (.log [par, i] (.ret (.ok 0))) := by simp only [go, hpc, h1, hlast, hpxd, if_true]
  rw [hgo] at hfr ⊢
  obtain ⟨g', ha, e1, e2, e3, e4⟩ : ∃ g', atomic A.fs (.link old new) = some (g', .ret (.ok 0)) ∧
      g'.inodes = upd (upd A.fs.inodes i (some { y with link := y.link + 1 })) par (some { pd with ents := entPut pd.ents n i, link := pd.link + 1 }) ∧
      g'.next = A.fs.next ∧ g'.fobj = A.fs.fobj ∧ g'.disk = A.fs.disk := by
    obtain ⟨⟨b, hwo⟩⟩ := hl
    have hset := walk_set (fs := A.fs) (nd' := { y with link := y.link + 1 }) hy rfl rfl new
    have hsp : (A.fs.set i (some { y with link := y.link + 1 })).inodes par = some pd := (upd_ne _ _ hne.symm).trans hpd
    refine ⟨(A.fs.link old new).1, ?_, ?_⟩
    · simp only [atomic, Fs.link, hlast, hwo, hy, hyd, hset, hw, hsp, hdir]; rfl
    · simp only [Fs.link, hlast, hwo, hy, hyd, hset, hw, hsp, hdir]; exact ⟨rfl, rfl, rfl, rfl⟩
  refine .commitTo R hp hfr ha (atomic_inv R.inv (R.good t _ hct) trivial ha) (R.next.trans e2.symm) ?_ rfl ?_
  · refine Stable.edit R.tree hld hgd hpd hdir ((congrFun e1 _).trans (upd_same _ _ _)) rfl rfl ?_ ?_
    · intro m hm' _
      have : n ≠ m := fun e => by subst e; rw [← hpe] at hm'; exact hm' (by simp [Call.changes])
      dsimp only
      rw [entGet_entPut, if_neg this]
    · intro q j nd _ _ _ hjp hj
      rw [e1, upd_ne _ _ hjp]
      by_cases e : j = i
      · subst e; rw [hy] at hj; cases hj
        exact ⟨_, upd_same _ _ _, rfl, fun h => by rw [hyd] at h; cases h⟩
      · exact ⟨nd, by rw [upd_ne _ _ e]; exact hj, rfl, fun _ => ⟨rfl, rfl⟩⟩
  · intro j
    rw [e1, e3, e4]
    by_cases e : j = par
    · subst e
      simp only [Fs.set, upd_same, holds]
      have hdt := R.data hct hpn hpre hld (by rw [own])
      have hent := R.entry hct hpn hq' hld hpd hdir (fun k => by rw [own]; simp) (by rw [own]; simp) h3
      refine R.put htN hct hpn hpre hld (by rw [own]) (by rw [own]) rfl rfl rfl rfl ?_ hdt.1 hdt.2 (Nat.add_comm _ _)
      refine Same.sig ?_ (by rw [own]; rfl) (by rw [own]; rfl) (by rw [own]; simp [sig, hne]) htN
      refine Same.addBoth h3 (by rw [hent]; exact hx.symm) hx.symm ?_ ?_
      · intro u
        by_cases e : u = t
        · subst e; rw [own]; simp
        · exact R.notRm hct hpn hq' hld hpd hdir e
      · intro u k
        by_cases e : u = t
        · subst e; rw [own]; simp
        · exact R.notAdd hct hpn hq' hld hpd hdir e k
    · simp only [Fs.set, upd_ne _ _ e, holds]
      by_cases e' : j = i
      · subst e'
        have hdt := R.data hct hon List.prefix_rfl hl (by rw [own])
        rw [g1]
        simp only [upd_same]
        refine R.put htN hct hon List.prefix_rfl hl (by rw [own]) (by rw [own]) rfl rfl rfl rfl ?_ hdt.1 hdt.2 (Nat.add_comm _ _)
        refine Same.attrs g3 htN (by rw [own]; rfl) (by rw [own]; rfl) g3.kind g3.mode g3.size g3.ref rfl rfl rfl ?_ ?_
        · rw [own]; simp [sig]; omega
        · intro hdir; rw [Inode.isDir, hdir] at hyd; cases hyd
      · simp only [upd_ne _ _ e']
        refine (R.ino j).keep ?_
        rw [own]; simp [sig, Ne.symm e', After.opens]

/-- The counts of something that is not a directory. -/
theorem Rel.plainLink (R : Rel N s A) {j : Nat} {x y : Inode} (hy : A.fs.inodes j = some y) (hd : y.isDir = false)
    (h : Same N (fun u => sig (s.pc u) j) x y) : x.link = y.link + tot N (fun u => sig (s.pc u) j) Sig.up := by
  have := h.link
  rw [tot_zero (w := Sig.adds) (fun u => by simp [Sig.adds, (R.plainSig hy hd u).1]),
    tot_zero (w := Sig.rms) (fun u => by simp [Sig.rms, (R.plainSig hy hd u).2])] at this
  simpa using this

theorem sim_linkUndo (R : Rel N s A) {o : Option Out} {old : List Name} {i : Nat} {er : Errno}
    (hp : A.pend t = some (c, o)) (hpc : s.pc t = .linkUndo old i er) : Sim N s A t (go s t) := by
  have hfr := R.frs.step (go_ok s t)
  have hct := R.callOf hp
  have htN := R.lt hp
  obtain ⟨rfl, ⟨new, rfl⟩, hpl⟩ : TI A.fs c o (.linkUndo old i er) := by have h := R.thr t c o hp; rw [hpc] at h; exact h
  have hon : old ∈ (Call.link old new).names := by simp [Call.names]
  obtain ⟨hl, y, hy, hyd⟩ := hpl
  have own : ∀ j, sig (s.pc t) j = { up := decide (i = j) } := fun j => by rw [hpc]; rfl
  obtain ⟨x, y', g1, g2, g3⟩ := R.node hct hon List.prefix_rfl hl (by rw [own])
  rw [hy] at g2; cases g2
  have hpos : 0 < x.link := by
    have := R.plainLink hy hyd g3
    have := leads_link R.tree (R.good t _ hct old hon) hl hy hyd
    omega
  have hxd : x.isDir = false := by rw [kind_dir g3.kind]; exact hyd
  have hgo : go s t = { s.fin t (s.fs.set i (some { x with link := x.link - 1 })) (.ret (.err er)) with held := s.held } := by
    simp only [go, hpc, g1, hxd]
    rw [if_neg (by simp; omega)]; rfl
  rw [hgo] at hfr ⊢
  refine .done R hp hfr rfl ?_
  intro j
  by_cases e : j = i
  · subst e
    rw [hy]
    have hdt := R.data hct hon List.prefix_rfl hl (by rw [own])
    simp only [Fs.set, upd_same]
    refine R.put htN hct hon List.prefix_rfl hl (by rw [own]) (by rw [own]) rfl rfl rfl rfl ?_ hdt.1 hdt.2 (Nat.add_comm _ _)
    refine Same.attrs g3 htN (by rw [own]) (by rw [own]) g3.kind g3.mode g3.size g3.ref rfl rfl rfl ?_ ?_
    · rw [own]; simp; omega
    · intro hdir; rw [Inode.isDir, hdir] at hyd; cases hyd
  · simp only [Fs.set, upd_ne _ _ e]
    refine (R.ino j).keep ?_
    rw [own]; simp [Ne.symm e]

end Verif.NameConc
