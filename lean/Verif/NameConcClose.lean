import Verif.NameConcEnd

/-! Steps of rmdir, rename and close. -/

namespace Verif.NameConc
open Verif.Path Verif.Fs

variable {N : Nat} {s : State} {A : Abs} {t : Nat} {c : Call}

theorem upd_eq {β : Type} {f : Nat → β} {i : Nat} {v : β} (h : f i = v) : upd f i v = f := by rw [← h, upd_self]

theorem sim_rmdirPar (R : Rel N s A) {o : Option Out} {p : List Name} {i par : Nat}
    (hp : A.pend t = some (c, o)) (hpc : s.pc t = .rmdirPar p i par) : Sim N s A t (go s t) := by
  have hfr := R.frs.step (go_ok s t)
  have hct := R.callOf hp
  obtain ⟨rfl, rfl, hw⟩ : TI A.fs c o (.rmdirPar p i par) := by have h := R.thr t c o hp; rw [hpc] at h; exact h
  have hpn : p ∈ (Call.rmdir p).names := by simp [Call.names]
  obtain ⟨d, n, pd, hpe, hld, hpd, hdir, hx⟩ := walk_par hw
  have hpre : d <+: p := by rw [hpe]; exact List.prefix_append _ _
  have own : ∀ j, sig (s.pc t) j = {} := fun j => by rw [hpc]; rfl
  obtain ⟨px, py, h1, h2, h3⟩ := R.node hct hpn hpre hld (by rw [own])
  rw [hpd] at h2; cases h2
  have hpxd : px.isDir := by rw [kind_dir h3.kind]; exact hdir
  by_cases hm : pd.mode &&& sIWALL = 0
  · have hgo : go s t = s.fin t s.fs (.ret (.err .EPERM)) := by
      simp only [go, hpc, h1, hpxd, h3.mode, hm, and_self, if_true]
    rw [hgo] at hfr ⊢
    exact .fail' R hp hfr own (by simp only [atomic, Fs.rmdir, hw, hpd, hdir, hm]; rfl) rfl
  · have hgo : go s t = s.to t s.fs (.rmdirNode p i par) := by
      simp only [go, hpc, h1, hpxd, h3.mode, hm, and_false, if_false]
    rw [hgo] at hfr ⊢
    exact .move R hp (.refl _) hfr (fun j => by rw [own]; rfl) ⟨rfl, rfl, hw, ⟨pd, hpd, hdir, hm⟩⟩

theorem rmdir_eff {g : Fs} {p : List Name} {i par : Nat} {n : Name} {y pd : Inode} (hw : g.walk p = some (some i, some par))
    (hy : g.inodes i = some y) (hyd : y.isDir) (hpd : g.inodes par = some pd) (hdir : pd.isDir)
    (hm : pd.mode &&& sIWALL ≠ 0) (hlast : p.getLast? = some n) (hent : entGet pd.ents n = some i) (hne : i ≠ par)
    (h1 : ¬ y.link > 3) (h2 : modeIsDir y.mode = true) (h3 : y.mode &&& sIWALL ≠ 0) :
    ∃ g', atomic g (.rmdir p) = some (g', .ret (.ok 0)) ∧
      (∀ j, g'.inodes j = if j = par then some { pd with ents := entDel pd.ents n, link := pd.link - 1 }
        else if j = i then (if y.ref = 0 then none else some y) else g.inodes j) ∧
      g'.next = g.next ∧ g'.fobj = g.fobj ∧ g'.disk = g.disk := by
  have hrm : ∀ fs1 : Fs, fs1.inodes par = some pd → fs1.removeFromParent par p =
      (fs1.set par (some { pd with ents := entDel pd.ents n, link := pd.link - 1 }), .ok 0) := by
    intro fs1 hp1
    simp only [Fs.removeFromParent, hp1, hdir, if_true, if_neg hm, hlast, hent]
  by_cases hr : y.ref = 0
  · have hq := hrm (g.set i (some { y with link := 2 })) ((upd_ne _ _ hne.symm).trans hpd)
    simp only [hr] at hq
    refine ⟨(g.rmdir p).1, ?_, ?_⟩
    · simp only [atomic, Fs.rmdir, hw, hpd, hdir, hm, and_false, if_false, hy, hyd, if_true, h1, h2, Bool.not_true, Bool.false_eq_true, h3, hr, hq]
      rfl
    · simp only [Fs.rmdir, hw, hpd, hdir, hm, and_false, if_false, hy, hyd, if_true, h1, h2, Bool.not_true, Bool.false_eq_true, h3, hr, hq]
      refine ⟨fun j => ?_, rfl, rfl, rfl⟩
      simp only [Fs.logIno, Fs.set]
      by_cases e : j = i
      · subst e; simp [hne]
      · by_cases e' : j = par
        · subst e'; simp [e]
        · simp [e, e']
  · have hq := hrm g hpd
    refine ⟨(g.rmdir p).1, ?_, ?_⟩
    · simp only [atomic, Fs.rmdir, hw, hpd, hdir, hm, and_false, if_false, hy, hyd, if_true, h1, h2, Bool.not_true, Bool.false_eq_true, h3, hr, hq]
      rfl
    · simp only [Fs.rmdir, hw, hpd, hdir, hm, and_false, if_false, hy, hyd, if_true, h1, h2, Bool.not_true, Bool.false_eq_true, h3, hr, hq]
      refine ⟨fun j => ?_, rfl, rfl, rfl⟩
      simp only [Fs.logIno, Fs.set]
      by_cases e' : j = par
      · subst e'; simp
      · by_cases e : j = i
        · subst e; simp [hne, hy]
        · simp [e, e']

theorem sim_rmdirNode (R : Rel N s A) {o : Option Out} {p : List Name} {i par : Nat}
    (hp : A.pend t = some (c, o)) (hpc : s.pc t = .rmdirNode p i par) (hal : Allowed s (.go t)) : Sim N s A t (go s t) := by
  have hfr := R.frs.step (go_ok s t)
  have hct := R.callOf hp
  have htN := R.lt hp
  have T := R.tree
  obtain ⟨rfl, rfl, hw, hwr⟩ : TI A.fs c o (.rmdirNode p i par) := by have h := R.thr t c o hp; rw [hpc] at h; exact h
  have hpn : p ∈ (Call.rmdir p).names := by simp [Call.names]
  have hch : p ∈ (Call.rmdir p).changes := by simp [Call.changes]
  have hgood := R.good t _ hct p hpn
  obtain ⟨d, n, pd, hpe, hld, hpd, hdir, hx⟩ := walk_par hw
  have hgd : GoodPath d := by rw [hpe] at hgood; exact good_left hgood
  have hpre : d <+: p := by rw [hpe]; exact List.prefix_append _ _
  have hq' : d ++ [n] <+: p := by rw [hpe]; exact List.prefix_rfl
  have hlast : p.getLast? = some n := by rw [hpe]; simp
  have hl : Leads A.fs p i := ⟨⟨_, hw⟩⟩
  have hne := walk_ne T hgood hw
  have own : ∀ j, sig (s.pc t) j = {} := fun j => by rw [hpc]; rfl
  obtain ⟨px, py, h1, h2, h3⟩ := R.node hct hpn hpre hld (by rw [own])
  rw [hpd] at h2; cases h2
  obtain ⟨pd', h2, -, hmode⟩ := hwr
  rw [hpd] at h2; cases h2
  obtain ⟨x, y, g1, hy, g3⟩ := R.node hct hpn List.prefix_rfl hl (by rw [own])
  have hk := kind_dir g3.kind
  have hat : atomic A.fs (.rmdir p) = atomic.conv (
          if y.isDir then
            if y.link > 3 then (A.fs, .err .ENOTEMPTY)
            else if !modeIsDir y.mode then (A.fs, .panic)
            else if y.mode &&& sIWALL = 0 then (A.fs, .err .EPERM)
            else
              let fs1 := if y.ref = 0 then A.fs.set i (some { y with link := 2 }) else A.fs
              match fs1.removeFromParent par p with
              | (fs2, .ok _) =>
                let fs3 := if y.ref = 0 then fs2.set i none else fs2
                ((fs3.logIno par).logIno i, .ok 0)
              | (fs2, r) => (fs2, r)
          else (A.fs, .err .ENOTDIR)) := by
    simp only [atomic, Fs.rmdir, hw, hpd, hmode, and_false, if_false, hy]
    rfl
  cases hxd : x.isDir with
  | false =>
    have hgo : go s t = s.fin t s.fs (.ret (.err .ENOTDIR)) := by simp only [go, hpc, g1, hxd]; rfl
    rw [hgo] at hfr ⊢
    exact .fail' R hp hfr own (by rw [hat, ← hk, hxd]; rfl) rfl
  | true =>
  have hyd : y.isDir := by rw [← hk]; exact hxd
  have clean : ∀ u, (sig (s.pc u) i).add = none ∧ (sig (s.pc u) i).rm = none := by
    intro u
    have away : ∀ {c' d' m}, s.call u = some c' → u ≠ t → d' ++ [m] ∈ c'.names → Leads A.fs d' i → False := by
      intro c' d' m hc' hu hq hlq
      have := uniq_dir T hgood (good_left (R.good u c' hc' _ hq)) hl hlq hy hyd
      subst this
      exact (R.apart t u _ c' (Ne.symm hu) hct hc').1 _ hch _ hq (List.prefix_append _ _)
    by_cases e : u = t
    · subst e; rw [own]; exact ⟨rfl, rfl⟩
    · constructor
      · cases hf : (sig (s.pc u) i).add with
        | none => rfl
        | some z =>
          obtain ⟨m, k⟩ := z
          obtain ⟨c', o', -, hc', ti⟩ := R.thread (sig_ne (fun e => by rw [e] at hf; cases hf))
          obtain ⟨d', q1, q2⟩ := ti_add ti hf
          exact (away hc' e (changes_names q1) q2).elim
      · cases hf : (sig (s.pc u) i).rm with
        | none => rfl
        | some m =>
          obtain ⟨c', o', -, hc', ti⟩ := R.thread (sig_ne (fun e => by rw [e] at hf; cases hf))
          obtain ⟨d', q1, q2⟩ := ti_rm ti hf
          exact (away hc' e (changes_names q1) q2).elim
  have hlink : x.link = y.link := by
    have := g3.link
    rw [tot_zero (w := Sig.adds) (fun u => by simp [Sig.adds, (clean u).1]),
      tot_zero (w := Sig.rms) (fun u => by simp [Sig.rms, (clean u).2]), tot_zero (w := Sig.up) (fun u => R.dirUp hy hyd u)] at this
    simpa using this
  by_cases hfull : y.link > 3
  · have hgo : go s t = s.fin t s.fs (.ret (.err .ENOTEMPTY)) := by
      simp only [go, hpc, g1, hxd, hlink, hfull, if_true]
    rw [hgo] at hfr ⊢
    exact .fail' R hp hfr own (by rw [hat, if_pos hyd, if_pos hfull]; rfl) rfl
  have hmd : modeIsDir y.mode = true := by
    simp only [Allowed, hpc] at hal
    rw [← g3.mode]; exact hal x g1
  by_cases hwm : y.mode &&& sIWALL = 0
  · have hgo : go s t = s.fin t s.fs (.ret (.err .EPERM)) := by
      simp only [go, hpc, g1, hxd, hlink, hfull, if_true, if_false, g3.mode, hmd, hwm, Bool.not_true, Bool.false_eq_true]
    rw [hgo] at hfr ⊢
    exact .fail' R hp hfr own (by rw [hat, if_pos hyd, if_neg hfull, hmd, if_pos hwm]; rfl) rfl
  have hgo : go s t = s.to t (if x.ref = 0 then s.fs.set i (some { x with link := 2 }) else s.fs)
      (.rmdirRemove p i par (decide (x.ref = 0))) := by
    simp only [go, hpc, g1, hxd, hlink, hfull, if_true, if_false, g3.mode, hmd, hwm, Bool.not_true, Bool.false_eq_true]
  rw [hgo] at hfr ⊢
  obtain ⟨g', ha, e1, e2, e3, e4⟩ := rmdir_eff hw hy hyd hpd hdir hmode hlast hx.symm hne hfull hmd hwm
  have hp' : g'.inodes par = some { pd with ents := entDel pd.ents n, link := pd.link - 1 } := by rw [e1, if_pos rfl]
  have hst : Stable A.fs g' (Call.rmdir p).changes := by
    refine Stable.edit T hld hgd hpd hdir hp' rfl rfl ?_ ?_
    · intro m hm' _
      have : m ≠ n := fun e => by subst e; rw [← hpe] at hm'; exact hm' hch
      exact entGet_entDel_ne this
    · intro q j nd hgq hcl hlq hjp hj
      rw [e1, if_neg hjp]
      by_cases e : j = i
      · subst e
        have := uniq_dir T hgq hgood hlq hl hy hyd
        subst this
        exact absurd List.prefix_rfl (hcl q hch)
      · rw [if_neg e]; exact ⟨nd, hj, rfl, fun _ => ⟨rfl, rfl⟩⟩
  have hnext : (if x.ref = 0 then s.fs.set i (some { x with link := 2 }) else s.fs).next = s.fs.next := by split <;> rfl
  have hfo : (if x.ref = 0 then s.fs.set i (some { x with link := 2 }) else s.fs).fobj = s.fs.fobj := by split <;> rfl
  have hdk : (if x.ref = 0 then s.fs.set i (some { x with link := 2 }) else s.fs).disk = s.fs.disk := by split <;> rfl
  have hin : ∀ j, j ≠ i → (if x.ref = 0 then s.fs.set i (some { x with link := 2 }) else s.fs).inodes j = s.fs.inodes j := by
    intro j hj
    split
    · exact upd_ne _ _ hj
    · rfl
  refine .commitTo R hp hfr ha (atomic_inv R.inv (R.good t _ hct) trivial ha) (hnext.trans (R.next.trans e2.symm)) hst ?_ ?_
  · refine ⟨rfl, hch, ?_, ⟨_, hp', hdir, hmode⟩⟩
    rw [hpe]
    exact walk_removed T hst hgd (clear_one hpe) hld hp' hdir entGet_entDel_same
  · intro j
    rw [e3, e4, e1, hfo, hdk]
    by_cases e : j = par
    · subst e
      have hji : j ≠ i := hne.symm
      rw [if_pos rfl, hin j hji, h1]
      simp only [holds]
      have hdt := R.data hct hpn hpre hld (by rw [own])
      have hent := R.entry hct hpn hq' hld hpd hdir (fun k => by rw [own]; simp) (by rw [own]; simp) h3
      refine R.put htN hct hpn hpre hld (by rw [own]) (by rw [own]) ?_ rfl rfl rfl ?_ hdt.1 hdt.2 (Nat.add_comm _ _)
      · simp [sig, hne]
      · refine Same.rmBegin h3 htN (by rw [own]) (n := n) (k := i) ?_ (by rw [own]; rfl) (by rw [own]; rfl) ?_ hx.symm (T.nodup hpd) ?_ ?_
        · simp [sig, hlast]
        · rw [hent]; exact hx.symm
        · rw [T.dlink hpd hdir (walk_ne7 T hgood hw)]; omega
        · intro u k
          by_cases e : u = t
          · subst e; rw [own]; simp
          · exact R.notAdd hct hpn hq' hld hpd hdir e k
    · rw [if_neg e]
      by_cases e' : j = i
      · subst e'
        have hdt := R.data hct hpn List.prefix_rfl hl (by rw [own])
        rw [if_pos rfl]
        by_cases hr : y.ref = 0
        · have hrx : x.ref = 0 := g3.ref.trans hr
          have hloc := R.inv.loc j
          rw [hy] at hloc
          have hdn := loc_disk hloc (by rw [isDir_iff.1 hyd]; simp)
          rw [if_pos hr, if_pos hrx, hdt.1, hdt.2, loc_closed hloc hr, hdn]
          simp only [Fs.set, upd_same, holds]
          refine InoRel.kill (b := false) (fun u _ => R.notDoom hct hpn List.prefix_rfl hl u)
            (fun u hu => R.notFresh hct hpn List.prefix_rfl hl hu) (fun u hu => R.notOpn hct hpn List.prefix_rfl hl hu)
            (by simp [sig, hrx]) rfl rfl (by simp) (by simp) ?_
          exact R.heldKill htN (fun u => by
              by_cases e : u = t
              · subst e; rw [own]
              · exact R.notOpn hct hpn List.prefix_rfl hl e) (by rw [own]) rfl
        · have hrx : x.ref ≠ 0 := fun h => hr (g3.ref.symm.trans h)
          rw [if_neg hr, if_neg hrx, ← hy]
          simp only [holds]
          refine (R.ino j).keep ?_
          rw [own]; simp [sig, hrx, Ne.symm e]
      · rw [if_neg e', hin j e']
        simp only [holds]
        refine (R.ino j).keep ?_
        rw [own]; simp [sig, Ne.symm e, Ne.symm e']

theorem sim_renameEdit (R : Rel N s A) {o : Option Out} {old new : List Name} {i par : Nat}
    (hp : A.pend t = some (c, o)) (hpc : s.pc t = .renameEdit old new i par) (hal : Allowed s (.go t)) : Sim N s A t (go s t) := by
  have hfr := R.frs.step (go_ok s t)
  have hct := R.callOf hp
  have htN := R.lt hp
  have T := R.tree
  obtain ⟨rfl, rfl, hw, k, hwn⟩ : TI A.fs c o (.renameEdit old new i par) := by have h := R.thr t c o hp; rw [hpc] at h; exact h
  have hon : old ∈ (Call.rename old new).names := by simp [Call.names]
  have hnn : new ∈ (Call.rename old new).names := by simp [Call.names]
  have hgo' := R.good t _ hct old hon
  have hgn := R.good t _ hct new hnn
  obtain ⟨d, a, pd, hoe, hld, hpd, hdir, hx⟩ := walk_par hw
  obtain ⟨d', b, pd', hne, hld', hpd', -, hx'⟩ := walk_par hwn
  rw [hpd] at hpd'; cases hpd'
  have hgd : GoodPath d := by rw [hoe] at hgo'; exact good_left hgo'
  have := uniq_dir T hgd (by rw [hne] at hgn; exact good_left hgn) hld hld' hpd hdir
  subst this
  have hpre : d <+: old := by rw [hoe]; exact List.prefix_append _ _
  have ho' : d ++ [a] <+: old := by rw [hoe]; exact List.prefix_rfl
  have hn' : d ++ [b] <+: new := by rw [hne]; exact List.prefix_rfl
  have hlo : old.getLast? = some a := by rw [hoe]; simp
  have hln : new.getLast? = some b := by rw [hne]; simp
  have own : ∀ j, sig (s.pc t) j = {} := fun j => by rw [hpc]; rfl
  obtain ⟨px, py, h1, h2, h3⟩ := R.node hct hon hpre hld (by rw [own])
  rw [hpd] at h2; cases h2
  have hpxd : px.isDir := by rw [kind_dir h3.kind]; exact hdir
  have ea := R.entry hct hon ho' hld hpd hdir (fun k => by rw [own]; simp) (by rw [own]; simp) h3
  have eb := R.entry hct hnn hn' hld hpd hdir (fun k => by rw [own]; simp) (by rw [own]; simp) h3
  have hfree : entGet px.ents b = none := by
    simp only [Allowed, hpc] at hal
    exact hal px b h1 hln
  have hk : k = none := by rw [hx', ← eb]; exact hfree
  subst hk
  have hab : a ≠ b := fun e => by rw [e, ← eb, hfree] at hx; cases hx
  have hgo : go s t = s.to t (s.fs.set par (some { px with ents := entDel (entPut px.ents b i) a })) (.log [par] (.dom old new)) := by
    simp only [go, hpc, h1, hlo, hln, hpxd, if_true]
  rw [hgo] at hfr ⊢
  obtain ⟨g', ha, e1, e2, e3, e4⟩ : ∃ g', atomic A.fs (.rename old new) = some (g', .ret (.ok 0)) ∧
      g'.inodes = upd A.fs.inodes par (some { pd with ents := entDel (entPut pd.ents b i) a }) ∧
      g'.next = A.fs.next ∧ g'.fobj = A.fs.fobj ∧ g'.disk = A.fs.disk := by
    refine ⟨(A.fs.rename old new).1, ?_, ?_⟩
    · simp only [atomic, Fs.rename, hw, hwn, ne_eq, not_true_eq_false, if_false, hpd, hlo, hln, hdir, if_true]
      rfl
    · simp only [Fs.rename, hw, hwn, ne_eq, not_true_eq_false, if_false, hpd, hlo, hln, hdir, if_true]
      exact ⟨rfl, rfl, rfl, rfl⟩
  have htame : RenameTame A.fs new := by
    intro j p h; rw [hwn] at h; cases h
  refine .commitTo R hp hfr ha (atomic_inv R.inv (R.good t _ hct) htame ha) (R.next.trans e2.symm) ?_ rfl ?_
  · refine Stable.edit T hld hgd hpd hdir ((congrFun e1 _).trans (upd_same _ _ _)) rfl rfl ?_ ?_
    · intro m hm' _
      have m1 : m ≠ a := fun e => by subst e; rw [← hoe] at hm'; exact hm' (by simp [Call.changes])
      have m2 : b ≠ m := fun e => by subst e; rw [← hne] at hm'; exact hm' (by simp [Call.changes])
      dsimp only
      rw [entGet_entDel_ne m1, entGet_entPut, if_neg m2]
    · intro q j nd _ _ _ hjp hj
      exact ⟨nd, by rw [e1, upd_ne _ _ hjp]; exact hj, rfl, fun _ => ⟨rfl, rfl⟩⟩
  · intro j
    rw [e1, e3, e4]
    by_cases e : j = par
    · subst e
      simp only [Fs.set, upd_same, holds]
      have hdt := R.data hct hon hpre hld (by rw [own])
      have rmn : ∀ {p n}, p ∈ (Call.rename old new).names → d ++ [n] <+: p → ∀ u, (sig (s.pc u) j).rm ≠ some n := by
        intro p n h1 h2 u
        by_cases e : u = t
        · subst e; rw [own]; simp
        · exact R.notRm hct h1 h2 hld hpd hdir e
      have adn : ∀ {p n}, p ∈ (Call.rename old new).names → d ++ [n] <+: p → ∀ u k, (sig (s.pc u) j).add ≠ some (n, k) := by
        intro p n h1 h2 u k
        by_cases e : u = t
        · subst e; rw [own]; simp
        · exact R.notAdd hct h1 h2 hld hpd hdir e k
      refine R.put htN hct hon hpre hld (by rw [own]) (by rw [own]) rfl rfl rfl rfl ?_ hdt.1 hdt.2 (Nat.add_comm _ _)
      refine Same.sig ?_ (by rw [own]; rfl) (by rw [own]; rfl) (by rw [own]; rfl) htN
      exact Same.moveBoth h3 hab hfree hx'.symm (T.nodup hpd) (by rw [ea]; exact hx.symm) hx.symm (rmn hnn hn') (adn hnn hn') (rmn hon ho') (adn hon ho')
    · simp only [Fs.set, upd_ne _ _ e, holds]
      refine (R.ino j).keep ?_
      rw [own]; rfl

/-! ## Close -/

/-- What is known when a descriptor on `i` is given up. -/
structure Closing (N : Nat) (s : State) (A : Abs) (t i : Nat) (x y : Inode) : Prop where
  hx : s.fs.inodes i = some x
  hy : A.fs.inodes i = some y
  same : Same N (fun u => sig (s.pc u) i) x y
  fobj : s.fs.fobj i = A.fs.fobj i
  disk : s.fs.disk i = A.fs.disk i
  quiet : ∀ u, (sig (s.pc u) i).doom = none ∧ (sig (s.pc u) i).fresh = none ∧ (sig (s.pc u) i).opn = false
  pos : 0 < A.held i
  ne7 : i ≠ 7
  kind : y.kind ≠ .sock
  held : ∀ z : Sig, z.cls = false → A.held i - 1 = s.held i + tot N (upd (fun u => sig (s.pc u) i) t z) Sig.cls

theorem sig_fresh_opn {q : Pc} {i : Nat} {nd : Inode} (h : (sig q i).fresh = some nd) : (nd.kind ≠ .file → nd.ref = 0) ∧ (nd.kind = .file → (sig q i).opn = true) := by
  have key : ∀ (new : New) par num, ((new.ino par num).kind ≠ .file → (new.ino par num).ref = 0) ∧ ((new.ino par num).kind = .file → new.isFile = true) := by
    intro new par num; cases new <;> simp [New.ino, newFile, New.isFile]
  unfold sig at h ⊢
  split at h <;> dsimp only at h <;> try (cases h; done)
  all_goals
    split at h
    · rename_i e; subst e; cases h
      simpa using key _ _ _
    · cases h

theorem Rel.closing (R : Rel N s A) {o : Option Out} {i : Nat} (hp : A.pend t = some (c, o)) (hpc : s.pc t = .closeDec i) :
    ∃ x y, Closing N s A t i x y := by
  have htN := R.lt hp
  have own : sig (s.pc t) i = { cls := true } := by rw [hpc]; simp [sig]
  have rh := (R.ino i).held
  have hc1 : 1 ≤ tot N (fun u => sig (s.pc u) i) Sig.cls := by
    have := sumTo_le (f := fun u => (Sig.cls (sig (s.pc u) i)).toNat) htN
    rw [own] at this; exact this
  have hpos : 0 < A.held i := by omega
  obtain ⟨y, hy, hks, h7⟩ := R.inv.held hpos
  have hloc := R.inv.loc i
  rw [hy] at hloc
  have hopn : ∀ u, (sig (s.pc u) i).opn = false := by
    intro u
    cases hf : (sig (s.pc u) i).opn with
    | false => rfl
    | true =>
      exfalso
      obtain ⟨-, -, -, -, h1, -⟩ := (R.ino i).opn u hf
      have huN := R.t_lt (sig_ne (i := i) (fun e => by rw [e] at hf; cases hf))
      have hc2 : 1 ≤ tot N (fun u => sig (s.pc u) i) Sig.opn := by
        have := sumTo_le (f := fun u => (Sig.opn (sig (s.pc u) i)).toNat) huN
        rw [hf] at this; exact this
      omega
  have hfresh : ∀ u, (sig (s.pc u) i).fresh = none := by
    intro u
    cases hf : (sig (s.pc u) i).fresh with
    | none => rfl
    | some nd =>
      exfalso
      have h1 := ((R.ino i).fresh u nd hf).2
      rw [hy] at h1; cases h1
      obtain ⟨h2, h3⟩ := sig_fresh_opn hf
      unfold LocalAt at hloc
      cases hk : y.kind <;> simp only [hk] at hloc
      · rw [hopn u] at h3; exact absurd (h3 hk) (by simp)
      all_goals have := h2 (by rw [hk]; simp); omega
  have hdoom : ∀ u, (sig (s.pc u) i).doom = none := by
    intro u
    cases hf : (sig (s.pc u) i).doom with
    | none => rfl
    | some b => have := ((R.ino i).doom u b hf).2.1; rw [hy] at this; cases this
  obtain ⟨x, hx, hs⟩ := (R.ino i).there y hy hfresh
  obtain ⟨d1, d2⟩ := (R.ino i).data (fun u => ⟨hopn u, hdoom u⟩)
  refine ⟨x, y, hx, hy, hs, d1, d2, fun u => ⟨hdoom u, hfresh u, hopn u⟩, hpos, h7, hks, ?_⟩
  intro z hz
  have h0 : tot N (fun u => sig (s.pc u) i) Sig.opn = 0 := tot_zero hopn
  have h1 := tot_upd htN (fun u => sig (s.pc u) i) z Sig.cls
  simp only [own, hz] at h1
  simp at h1
  omega

/-- The counts go down, and the inode stays. -/
theorem Closing.keep {i : Nat} {x y : Inode} (K : Closing N s A t i x y) (R : Rel N s A) (htN : t < N) (own : ∀ j, sig (s.pc t) j = { cls := decide (i = j) })
    {fs' g' : Fs} {fo : Option Nat} (e1 : fs'.inodes = upd s.fs.inodes i (some { x with ref := x.ref - 1 }))
    (e2 : g'.inodes = upd A.fs.inodes i (some { y with ref := y.ref - 1 })) (e3 : fs'.fobj = upd s.fs.fobj i fo)
    (e4 : g'.fobj = upd A.fs.fobj i fo) (e5 : fs'.disk = s.fs.disk) (e6 : g'.disk = A.fs.disk) (o : Out) (j : Nat) :
    InoRel N (upd (fun u => sig (s.pc u) j) t {}) (fs'.inodes j) (g'.inodes j) (fs'.fobj j) (g'.fobj j)
      (fs'.disk j) (g'.disk j) (s.held j) (holds A.held (.close i) o j) := by
  rw [e1, e2, e3, e4, e5, e6]
  simp only [holds]
  by_cases e : j = i
  · subst e
    simp only [upd_same]
    refine InoRel.put (fun u _ => (K.quiet u).1) (fun u _ => (K.quiet u).2.1) (fun u _ => (K.quiet u).2.2) rfl rfl rfl ?_ rfl K.disk ?_
    · exact Same.attrs K.same htN (by rw [own]) (by rw [own]) K.same.kind K.same.mode K.same.size (by dsimp only; rw [K.same.ref])
        rfl rfl rfl (by rw [own]) (fun _ => ⟨rfl, rfl⟩)
    · exact K.held {} rfl
  · simp only [upd_ne _ _ e]
    refine (R.ino j).keep ?_
    rw [own]; simp [Ne.symm e]

theorem Closing.stable {i : Nat} {x y : Inode} (K : Closing N s A t i x y) {g' : Fs}
    (e2 : g'.inodes = upd A.fs.inodes i (some { y with ref := y.ref - 1 })) (C : List (List Name)) : Stable A.fs g' C := by
  refine Stable.attr _ (fun j nd hj => ?_)
  by_cases e : j = i
  · subst e; rw [K.hy] at hj; cases hj
    exact ⟨_, (congrFun e2 _).trans (upd_same _ _ _), rfl, fun _ => ⟨rfl, rfl⟩⟩
  · exact ⟨nd, (congrFun e2 _).trans ((upd_ne _ _ e).trans hj), rfl, fun _ => ⟨rfl, rfl⟩⟩

/-- Without a link, a file of the concurrent model has none in the specification, and the other way round. -/
theorem Closing.zero {i : Nat} {x y : Inode} (K : Closing N s A t i x y) (R : Rel N s A) (hyd : y.isDir = false) : x.link = 0 ↔ y.link = 0 := by
  have e := R.plainLink K.hy hyd K.same
  constructor
  · intro h; omega
  · intro h
    have : tot N (fun u => sig (s.pc u) i) Sig.up = 0 := tot_zero (fun u => by
      cases hf : (sig (s.pc u) i).up with
      | false => rfl
      | true =>
        exfalso
        obtain ⟨c', o', -, hc', ti⟩ := R.thread (sig_ne (fun e => by rw [e] at hf; cases hf))
        obtain ⟨q, g1, g2⟩ := ti_up ti hf
        have := leads_link R.tree (R.good u c' hc' _ g1) g2.leads K.hy hyd
        omega)
    omega

/-- An open directory never looks empty of links. -/
theorem Closing.dir {i : Nat} {x y : Inode} (K : Closing N s A t i x y) (R : Rel N s A) (hyd : y.isDir = true) : x.link ≠ 2 ∧ y.link ≠ 2 := by
  have T := R.tree
  have two : ∀ (l : List (Name × Nat)) a b, entGet l dot = some a → entGet l dotdot = some b → 2 ≤ l.length := by
    intro l a b h1 h2
    have m1 := entGet_mem h1
    have m2 := entGet_mem h2
    match l, m1, m2 with
    | [], m1, _ => cases m1
    | [z], m1, m2 =>
      simp only [List.mem_singleton] at m1 m2
      rw [← m1] at m2
      have := (Prod.mk.inj m2).1
      simp [dot, dotdot] at this
    | _ :: _ :: _, _, _ => simp
  obtain ⟨hd, p, hdd, -⟩ := T.dots K.hy hyd K.ne7
  have hl := T.dlink K.hy hyd K.ne7
  have h2 := two _ _ _ hd hdd
  refine ⟨?_, by omega⟩
  have hxl := K.same.dlink (isDir_iff.1 hyd)
  have ex : ∀ {n k}, ¬ Good n → entGet y.ents n = some k → entGet x.ents n = some k := by
    intro n k hn hk
    rcases (K.same.mem n k).1 (entGet_mem hk) with ⟨h, -⟩ | ⟨u, hu⟩
    · exact (entGet_iff K.same.nodup).2 h
    · exfalso
      obtain ⟨c', o', -, hc', ti⟩ := R.thread (s := s) (u := u) (sig_ne (i := i) (fun e => by rw [e] at hu; cases hu))
      obtain ⟨d', q1, -⟩ := ti_add ti hu
      exact hn (good_last (R.good u c' hc' _ (changes_names q1)))
  have := two _ _ _ (ex (fun h => h.2.2.1 rfl) hd) (ex (fun h => h.2.2.2 rfl) hdd)
  omega

/-- The last descriptor of a file without a name. -/
theorem Closing.kill {i : Nat} {x y : Inode} (K : Closing N s A t i x y) (R : Rel N s A) (own : ∀ j, sig (s.pc t) j = { cls := decide (i = j) })
    {fs' g' : Fs} (e1 : fs'.inodes = upd s.fs.inodes i (some { x with ref := x.ref - 1 }))
    (e2 : g'.inodes = upd A.fs.inodes i none) (e3 : fs'.fobj = upd s.fs.fobj i none) (e4 : g'.fobj = upd A.fs.fobj i none)
    (e5 : fs'.disk = s.fs.disk) (e6 : g'.disk = upd A.fs.disk i none) (d1 : x.kind = .file → s.fs.disk i ≠ none)
    (d2 : x.kind ≠ .file → s.fs.disk i = none) (o : Out) (j : Nat) :
    InoRel N (upd (fun u => sig (s.pc u) j) t (sig (.closeReap i x.kind) j)) (fs'.inodes j) (g'.inodes j) (fs'.fobj j) (g'.fobj j)
      (fs'.disk j) (g'.disk j) (s.held j) (holds A.held (.close i) o j) := by
  rw [e1, e2, e3, e4, e5, e6]
  simp only [holds]
  by_cases e : j = i
  · subst e
    simp only [upd_same]
    refine InoRel.kill (b := decide (x.kind = .file)) (fun u _ => (K.quiet u).1) (fun u _ => (K.quiet u).2.1) (fun u _ => (K.quiet u).2.2)
      (by simp [sig]) rfl rfl (fun h => d1 (by simpa using h)) (fun h => d2 (by simpa using h)) (K.held _ rfl)
  · simp only [upd_ne _ _ e]
    refine (R.ino j).keep ?_
    rw [own]; simp [sig, Ne.symm e]

theorem Closing.stableKill {i : Nat} {x y : Inode} (K : Closing N s A t i x y) (R : Rel N s A) (hyd : y.isDir = false) (hz : y.link = 0) {g' : Fs}
    (e2 : g'.inodes = upd A.fs.inodes i none) (C : List (List Name)) : Stable A.fs g' C := by
  refine ⟨fun q j nd hq _ hl hj => ?_⟩
  by_cases e : j = i
  · subst e
    have := leads_link R.tree hq hl K.hy hyd
    omega
  · exact ⟨nd, (congrFun e2 _).trans ((upd_ne _ _ e).trans hj), rfl, fun _ => ⟨rfl, fun _ _ _ => rfl⟩⟩

theorem sim_closeDec (R : Rel N s A) {o : Option Out} {i : Nat}
    (hp : A.pend t = some (c, o)) (hpc : s.pc t = .closeDec i) : Sim N s A t (go s t) := by
  have hfr := R.frs.step (go_ok s t)
  have hct := R.callOf hp
  have htN := R.lt hp
  obtain ⟨rfl, rfl⟩ : TI A.fs c o (.closeDec i) := by have h := R.thr t c o hp; rw [hpc] at h; exact h
  have own : ∀ j, sig (s.pc t) j = { cls := decide (i = j) } := fun j => by rw [hpc]; rfl
  obtain ⟨x, y, K⟩ := R.closing hp hpc
  have hok := (R.inv.closeIno K.pos).2
  have ha : atomic A.fs (.close i) = some ((A.fs.closeIno i).1, .ret (.ok 0)) := by
    simp only [atomic, atomic.conv, hok]; rfl
  have hinv := atomic_inv R.inv (R.good t _ hct) K.pos ha
  have hloc := R.inv.loc i
  rw [K.hy] at hloc
  cases hk : y.kind with
  | sock => exact absurd hk K.kind
  | dir =>
    have hkx : x.kind = .dir := K.same.kind.trans hk
    obtain ⟨l1, l2⟩ := K.dir R (isDir_iff.2 hk)
    simp only [LocalAt, hk] at hloc
    have hgo : go s t = { s.fin t (s.fs.set i (some { x with ref := x.ref - 1 })) (.ret (.ok 0)) with held := s.held } := by
      simp only [go, hpc, K.hx, hkx, K.fobj, hloc.1, l1, Option.isSome_none, Bool.false_eq_true, if_false, false_and]; rfl
    have hg : (A.fs.closeIno i).1 = A.fs.set i (some { y with ref := y.ref - 1 }) := by
      simp only [Fs.closeIno, K.hy, hk, hloc.1, l2, Option.isSome_none, Bool.false_eq_true, if_false, false_and]
    rw [hg] at ha hinv
    rw [hgo] at hfr ⊢
    exact .commitFin R hp hfr ha hinv R.next (K.stable rfl _)
      (fun j => K.keep R htN own (fo := A.fs.fobj i) (fs' := s.fs.set i (some { x with ref := x.ref - 1 }))
        (g' := A.fs.set i (some { y with ref := y.ref - 1 })) rfl rfl ((upd_eq K.fobj).symm) ((upd_eq rfl).symm) rfl rfl _ j)
  | file =>
    have hkx : x.kind = .file := K.same.kind.trans hk
    have hyd : y.isDir = false := by simp [Inode.isDir, hk]
    have hz := K.zero R hyd
    simp only [LocalAt, hk] at hloc
    obtain ⟨⟨d, hd, -⟩, hfo, href, -⟩ := hloc
    have hpos := K.pos
    rw [if_neg (by omega)] at hfo
    by_cases hr : y.ref - 1 = 0
    · by_cases hl : y.link = 0
      · have hgo : go s t = s.to t { s.fs.set i (some { x with ref := x.ref - 1 }) with fobj := upd s.fs.fobj i none } (.closeReap i x.kind) := by
          simp only [go, hpc, K.hx, hkx, K.fobj, hfo, K.same.ref, hr, hz.2 hl, if_true]; rfl
        have hg : (A.fs.closeIno i).1 = ((({ A.fs.set i (some { y with ref := y.ref - 1 }) with fobj := upd A.fs.fobj i none } : Fs).set i none).rmHost i).logIno i := by
          simp only [Fs.closeIno, K.hy, hk, hfo, hr, hl, hd, if_true]; rfl
        rw [hg] at ha hinv
        rw [hgo] at hfr ⊢
        have hin : ((({ A.fs.set i (some { y with ref := y.ref - 1 }) with fobj := upd A.fs.fobj i none } : Fs).set i none).rmHost i |>.logIno i).inodes = upd A.fs.inodes i none := by
          simp only [Fs.logIno, Fs.rmHost, Fs.set, upd_upd]
        exact .commitTo R hp hfr ha hinv R.next (K.stableKill R hyd hl hin _) rfl
          (fun j => K.kill R own (fs' := { s.fs.set i (some { x with ref := x.ref - 1 }) with fobj := upd s.fs.fobj i none }) (j := j) rfl hin rfl rfl rfl rfl (fun _ => by rw [K.disk, hd]; simp) (fun h => absurd hkx h) _)
      · have hgo : go s t = { s.fin t { s.fs.set i (some { x with ref := x.ref - 1 }) with fobj := upd s.fs.fobj i none } (.ret (.ok 0)) with held := s.held } := by
          have hlx : x.link ≠ 0 := fun h => hl (hz.1 h)
          simp only [go, hpc, K.hx, hkx, K.fobj, hfo, K.same.ref, hr, hlx, if_true, if_false]; rfl
        have hg : (A.fs.closeIno i).1 = { A.fs.set i (some { y with ref := y.ref - 1 }) with fobj := upd A.fs.fobj i none } := by
          simp only [Fs.closeIno, K.hy, hk, hfo, hr, hl, if_true, if_false]; rfl
        rw [hg] at ha hinv
        rw [hgo] at hfr ⊢
        exact .commitFin R hp hfr ha hinv R.next (K.stable rfl _) (fun j => K.keep R htN own (fo := none) (fs' := { s.fs.set i (some { x with ref := x.ref - 1 }) with fobj := upd s.fs.fobj i none })
          (g' := { A.fs.set i (some { y with ref := y.ref - 1 }) with fobj := upd A.fs.fobj i none }) rfl rfl rfl rfl rfl rfl _ j)
    · have hgo : go s t = { s.fin t (s.fs.set i (some { x with ref := x.ref - 1 })) (.ret (.ok 0)) with held := s.held } := by
        simp only [go, hpc, K.hx, hkx, K.same.ref, hr, if_false]; rfl
      have hg : (A.fs.closeIno i).1 = A.fs.set i (some { y with ref := y.ref - 1 }) := by
        simp only [Fs.closeIno, K.hy, hk, hr, if_false]
      rw [hg] at ha hinv
      rw [hgo] at hfr ⊢
      exact .commitFin R hp hfr ha hinv R.next (K.stable rfl _)
        (fun j => K.keep R htN own (fo := A.fs.fobj i) (fs' := s.fs.set i (some { x with ref := x.ref - 1 }))
        (g' := A.fs.set i (some { y with ref := y.ref - 1 })) rfl rfl ((upd_eq K.fobj).symm) ((upd_eq rfl).symm) rfl rfl _ j)
  | chr dev =>
    have hkx : x.kind = .chr dev := K.same.kind.trans hk
    have hyd : y.isDir = false := by simp [Inode.isDir, hk]
    have hz := K.zero R hyd
    simp only [LocalAt, hk] at hloc
    obtain ⟨hfo, hd, href, -⟩ := hloc
    by_cases hr : y.link = 0 ∧ y.ref - 1 = 0
    · have hgo : go s t = s.to t (s.fs.set i (some { x with ref := x.ref - 1 })) (.closeReap i x.kind) := by
        simp only [go, hpc, K.hx, hkx, K.fobj, hfo, K.same.ref, hr, hz.2 hr.1, Option.isSome_none, Bool.false_eq_true, and_self, if_true, if_false]
      have hg : (A.fs.closeIno i).1 = ((A.fs.set i (some { y with ref := y.ref - 1 })).set i none).logIno i := by
        simp only [Fs.closeIno, K.hy, hk, hfo, hr, Option.isSome_none, Bool.false_eq_true, and_self, if_true, if_false]
      rw [hg] at ha hinv
      rw [hgo] at hfr ⊢
      have hin : (((A.fs.set i (some { y with ref := y.ref - 1 })).set i none).logIno i).inodes = upd A.fs.inodes i none := by
        simp only [Fs.logIno, Fs.set, upd_upd]
      exact .commitTo R hp hfr ha hinv R.next (K.stableKill R hyd hr.1 hin _) rfl
        (fun j => K.kill R own (fs' := s.fs.set i (some { x with ref := x.ref - 1 })) (j := j) rfl hin ((upd_eq (K.fobj.trans hfo)).symm) ((upd_eq hfo).symm) rfl ((upd_eq hd).symm)
          (fun h => by rw [hkx] at h; cases h) (fun _ => K.disk.trans hd) _)
    · have hrx : ¬ (x.link = 0 ∧ y.ref - 1 = 0) := fun h => hr ⟨hz.1 h.1, h.2⟩
      have hgo : go s t = s.to t (s.fs.set i (some { x with ref := x.ref - 1 })) (.log [i] (.ret (.ok 0))) := by
        simp only [go, hpc, K.hx, hkx, K.fobj, hfo, K.same.ref, hrx, Option.isSome_none, Bool.false_eq_true, if_false]
      have hg : (A.fs.closeIno i).1 = (A.fs.set i (some { y with ref := y.ref - 1 })).logIno i := by
        simp only [Fs.closeIno, K.hy, hk, hfo, hr, Option.isSome_none, Bool.false_eq_true, if_false]
      rw [hg] at ha hinv
      rw [hgo] at hfr ⊢
      exact .commitTo R hp hfr ha hinv R.next (K.stable rfl _) rfl
        (fun j => K.keep R htN own (fo := A.fs.fobj i) (fs' := s.fs.set i (some { x with ref := x.ref - 1 }))
        (g' := A.fs.set i (some { y with ref := y.ref - 1 })) rfl rfl ((upd_eq K.fobj).symm) ((upd_eq rfl).symm) rfl rfl _ j)

end Verif.NameConc
