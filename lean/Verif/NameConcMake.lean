import Verif.NameConcStep

/-! Steps of creations, of stat and of open. -/

namespace Verif.NameConc
open Verif.Path Verif.Fs

variable {N : Nat} {s : State} {A : Abs} {t : Nat} {c : Call}

/-- What a call must not be, for the invariant to survive it. -/
def Tame (g : Fs) (held : Nat → Nat) : Call → Prop
  | .unlink p => UnlinkTame g p
  | .rename _ new => RenameTame g new
  | .close i => 0 < held i
  | _ => True

theorem atomic_inv {g g' : Fs} {held : Nat → Nat} (h : FsInv g held) {o : Out} (hg : ∀ p ∈ c.names, GoodPath p)
    (ht : Tame g held c) (ha : atomic g c = some (g', o)) : FsInv g' (holds held c o) := by
  have conv : ∀ {r : Fs × Ret}, atomic.conv r = some (g', o) → g' = r.1 ∧ o = .ret r.2 := by
    intro r hr
    simp only [atomic.conv] at hr
    split at hr
    · cases hr
    · cases hr; exact ⟨rfl, rfl⟩
  cases c with
  | mkdir p m => obtain ⟨rfl, rfl⟩ := conv ha; exact (h.mkdir (hg p (by simp [Call.names])) m).1
  | mknod p m dev => obtain ⟨rfl, rfl⟩ := conv ha; exact (h.mknod (hg p (by simp [Call.names])) m dev).1
  | «open» p fl m =>
    simp only [atomic] at ha
    rcases h.openP (hg p (by simp [Call.names])) fl m with ⟨r, h1, h2⟩ | ⟨fs', i, sz, h1, h2⟩
    · rw [h1] at ha
      obtain ⟨rfl, rfl⟩ := conv ha; exact h
    · rw [h1] at ha
      cases ha; exact h2
  | link old new => obtain ⟨rfl, rfl⟩ := conv ha; exact (h.link (hg old (by simp [Call.names])) (hg new (by simp [Call.names]))).1
  | unlink p => obtain ⟨rfl, rfl⟩ := conv ha; exact (h.unlink (hg p (by simp [Call.names])) ht).1
  | rmdir p => obtain ⟨rfl, rfl⟩ := conv ha; exact h.rmdir (hg p (by simp [Call.names]))
  | rename old new =>
    obtain ⟨rfl, rfl⟩ := conv ha; exact (h.rename (hg old (by simp [Call.names])) (hg new (by simp [Call.names])) ht).1
  | stat p =>
    simp only [atomic] at ha
    split at ha <;> cases ha <;> exact h
  | chmod p m => obtain ⟨rfl, rfl⟩ := conv ha; exact h.chmod p m
  | close i => obtain ⟨rfl, rfl⟩ := conv ha; exact (h.closeIno ht).1

/-! ## Changes that others do not see -/

theorem Stable.attr {g g' : Fs} (C : List (List Name))
    (h : ∀ i nd, g.inodes i = some nd → ∃ nd', g'.inodes i = some nd' ∧ nd'.kind = nd.kind ∧
      (nd.isDir → nd'.mode = nd.mode ∧ nd'.ents = nd.ents)) : Stable g g' C := by
  refine ⟨fun q i nd _ _ _ hi => ?_⟩
  obtain ⟨nd', h1, h2, h3⟩ := h i nd hi
  exact ⟨nd', h1, h2, fun hd => ⟨(h3 hd).1, fun n _ _ => by rw [(h3 hd).2]⟩⟩

theorem Stable.edit {g g' : Fs} {C : List (List Name)} (T : Tree g.inodes g.next) {par : Nat} {pd pd' : Inode} {d : List Name}
    (hl : Leads g d par) (hg : GoodPath d) (hp : g.inodes par = some pd) (hd : pd.isDir) (hp' : g'.inodes par = some pd')
    (hk : pd'.kind = pd.kind) (hm : pd'.mode = pd.mode)
    (he : ∀ m, d ++ [m] ∉ C → Good m → entGet pd'.ents m = entGet pd.ents m)
    (rest : ∀ q i nd, GoodPath q → Clear C q → Leads g q i → i ≠ par → g.inodes i = some nd →
      ∃ nd', g'.inodes i = some nd' ∧ nd'.kind = nd.kind ∧ (nd.isDir → nd'.mode = nd.mode ∧ nd'.ents = nd.ents)) :
    Stable g g' C := by
  refine ⟨fun q i nd hq hc hli hi => ?_⟩
  by_cases e : i = par
  · subst e
    rw [hp] at hi; cases hi
    have := uniq_dir T hg hq hl hli hp hd
    subst this
    exact ⟨pd', hp', hk, fun _ => ⟨hm, he⟩⟩
  · obtain ⟨nd', h1, h2, h3⟩ := rest q i nd hq hc hli e hi
    exact ⟨nd', h1, h2, fun hd => ⟨(h3 hd).1, fun n _ _ => by rw [(h3 hd).2]⟩⟩

/-! ## Steps of which the specification sees nothing, or the return -/

theorem Sim.stay (R : Rel N s A) {o : Option Out} (hp : A.pend t = some (c, o)) {fs' : Fs} {q : Pc}
    (hfr : Fresh (s.to t fs' q)) (hn : fs'.next = s.fs.next) (ti : TI A.fs c o q)
    (ino : ∀ i, InoRel N (upd (fun u => sig (s.pc u) i) t (sig q i)) (fs'.inodes i) (A.fs.inodes i) (fs'.fobj i) (A.fs.fobj i)
      (fs'.disk i) (A.fs.disk i) (s.held i) (A.held i)) : Sim N s A t (s.to t fs' q) := by
  refine ⟨A, ?_, ?_⟩
  · rw [show s.to t fs' q = { s with fs := fs', held := s.held, pc := upd s.pc t q } from rfl, obs_to (R.callOf hp)]; exact .refl A
  · refine R.toStep (A' := A) (o' := o) (held' := s.held) hp hfr ?_ R.inv (hn.trans R.next) (Stable.refl _ _) ti ino
    rw [← hp, upd_self]

theorem Sim.done (R : Rel N s A) {o : Out} (hp : A.pend t = some (c, some o)) {fs' : Fs} {held' : Nat → Nat}
    (hfr : Fresh { s.fin t fs' o with held := held' }) (hn : fs'.next = s.fs.next)
    (ino : ∀ i, InoRel N (upd (fun u => sig (s.pc u) i) t {}) (fs'.inodes i) (A.fs.inodes i) (fs'.fobj i) (A.fs.fobj i)
      (fs'.disk i) (A.fs.disk i) (held' i) (A.held i)) : Sim N s A t { s.fin t fs' o with held := held' } := by
  refine ⟨{ A with pend := upd A.pend t none }, ?_, ?_⟩
  · rw [show ({ s.fin t fs' o with held := held' } : State) = { s with fs := fs', held := held', pc := upd s.pc t .idle, call := upd s.call t none, res := upd s.res t (some o) } from rfl,
      obs_fin (R.callOf hp)]
    exact .ret hp (alike_refl o) (.refl _)
  · exact R.finStep (held' := held') hp hfr rfl R.inv (hn.trans R.next) (Stable.refl _ _) ino

section
variable (R : Rel N s A) (ht : t < N) (hc : s.call t = some c) {p q : List Name} (hp : p ∈ c.names) (hq : q <+: p) {j : Nat}
  (hl : Leads A.fs q j)
include R ht hc hp hq hl

/-- A reachable inode after a step that is not about its creation or its end. -/
theorem Rel.put {z : Sig} (o1 : (sig (s.pc t) j).opn = false) (o2 : (sig (s.pc t) j).cls = false)
    (z1 : z.doom = none) (z2 : z.fresh = none) (z3 : z.opn = false) (z4 : z.cls = false) {x y : Inode} {fo fo' dk dk'} {h h' : Nat}
    (hs : Same N (upd (fun u => sig (s.pc u) j) t z) x y) (e1 : fo = fo') (e2 : dk = dk') (hh : h' + s.held j = h + A.held j) :
    InoRel N (upd (fun u => sig (s.pc u) j) t z) (some x) (some y) fo fo' dk dk' h h' := by
  refine InoRel.put (fun u _ => R.notDoom hc hp hq hl u) (fun u hu => R.notFresh hc hp hq hl hu)
    (fun u hu => R.notOpn hc hp hq hl hu) z1 z2 z3 hs e1 e2 ?_
  have r := (R.ino j).held
  have h0 : tot N (fun u => sig (s.pc u) j) Sig.opn = 0 := tot_zero (fun u => by
    by_cases e : u = t
    · subst e; exact o1
    · exact R.notOpn hc hp hq hl e)
  have h1 := tot_upd ht (fun u => sig (s.pc u) j) z Sig.cls
  simp only [o2, z4] at h1
  simp at h1
  omega

omit ht in
theorem Rel.data (o1 : (sig (s.pc t) j).opn = false) : s.fs.fobj j = A.fs.fobj j ∧ s.fs.disk j = A.fs.disk j := by
  refine (R.ino j).data (fun u => ⟨?_, R.notDoom hc hp hq hl u⟩)
  by_cases e : u = t
  · subst e; exact o1
  · exact R.notOpn hc hp hq hl e

end

/-! ## Creation -/

/-- The atomic creation. -/
theorem atomic_make {g : Fs} {held : Nat → Nat} (h : FsInv g held) {p d : List Name} {n : Name} {new : New} (hm : Makes c p new) {par : Nat}
    {pd : Inode} (hw : g.walk p = some (none, some par)) (hpd : g.inodes par = some pd) (hd : pd.isDir) (hpn : p = d ++ [n]) :
    ∃ g', atomic g c = some (g', new.out g.next) ∧
      g'.inodes = upd (upd g.inodes par (some { pd with ents := entPut pd.ents n g.next, link := pd.link + 1 })) g.next
        (some (new.ino par g.next)) ∧
      g'.next = g.next + 1 ∧
      (new.isFile = true → g'.fobj = upd g.fobj g.next (some 0) ∧ g'.disk = upd g.disk g.next (some [])) ∧
      (new.isFile = false → g'.fobj = g.fobj ∧ g'.disk = g.disk) ∧
      holds held c (new.out g.next) = if new.isFile then upd held g.next (held g.next + 1) else held := by
  have hlast : p.getLast? = some n := by rw [hpn]; simp
  obtain ⟨-, hfo, hdk, -⟩ := h.next_none
  rcases hm with ⟨m, rfl, rfl, h1⟩ | ⟨m, dev, rfl, rfl, h1, h2⟩ | ⟨fl, m, rfl, rfl, h1, h2, h3⟩
  · obtain ⟨g', e1, e2, e3, e4, e5, -⟩ := create_eq (fs := g) n (fun new => (New.dir m).ino par new) hpd hd
    refine ⟨g', ?_, e2, e3, fun h => (by cases h), fun _ => ⟨e4, e5⟩, rfl⟩
    have : g.create par n (fun new => { kind := .dir, mode := sIFDIR ||| m, size := 0, link := 3, ref := 0, ents := initEnts new par }) = some g' := e1
    simp only [atomic, Fs.mkdir, hw, h1, hlast, this]
    rfl
  · obtain ⟨g', e1, e2, e3, e4, e5, -⟩ := create_eq (fs := g) n (fun new => (New.chr m dev).ino par new) hpd hd
    refine ⟨g', ?_, e2, e3, fun h => (by cases h), fun _ => ⟨e4, e5⟩, rfl⟩
    have : g.create par n (fun _ => { kind := .chr (DevNo.devtuple dev), mode := m, size := 0, link := 1, ref := 0, ents := [] }) = some g' := e1
    simp only [atomic, Fs.mknod, hw, h1, hlast, this, h2]
    rfl
  · obtain ⟨g', e1, e2, e3, e4, e5, -⟩ := create_eq (fs := g) n (fun new => (New.file m).ino par new) hpd hd
    have : g.create par n (fun _ => newFile m) = some g' := e1
    have e6 : g'.openObj g.next 0 = { g' with fobj := upd g'.fobj g.next (some 0), disk := upd g'.disk g.next (some []) } := by
      simp only [Fs.openObj, e4, e5, hfo, hdk]; rfl
    refine ⟨g'.openObj g.next 0, ?_, by rw [e6]; exact e2, by rw [e6]; exact e3, fun _ => ⟨by rw [e6, ← e4], by rw [e6, ← e5]⟩, fun h => (by cases h), rfl⟩
    simp only [atomic, Fs.openP, hw, h1, h2, h3, hlast, this]
    rfl

theorem sim_alloc (R : Rel N s A) {p : List Name} {par : Nat} {new : New} (hp : A.pend t = some (c, none))
    (hpc : s.pc t = .alloc p par new) (hm : Makes c p new) (hw : A.fs.walk p = some (none, some par))
    (hfr : Fresh (s.to t { s.fs with next := s.fs.next + 1 } (.enter p par new s.fs.next))) :
    Sim N s A t (s.to t { s.fs with next := s.fs.next + 1 } (.enter p par new s.fs.next)) := by
  have hct := R.callOf hp
  have htN := R.lt hp
  have T := R.tree
  have hpn := changes_names hm.changes
  have hgood := R.good t c hct p hpn
  obtain ⟨d, n, pd, hpe, hld, hpd, hdir, hx⟩ := walk_par hw
  have hgd : GoodPath d := by rw [hpe] at hgood; exact good_left hgood
  obtain ⟨g', ha, e1, e2, e3, e4, e5⟩ := atomic_make R.inv hm hw hpd hdir hpe
  rw [R.next] at hfr ⊢
  obtain ⟨hn0, hnf, hnd, hnh⟩ := R.inv.next_none
  have hparn : par ≠ A.fs.next := fun e => by rw [e, hn0] at hpd; cases hpd
  have hinv : FsInv g' (holds A.held c (new.out A.fs.next)) := by
    refine atomic_inv R.inv (R.good t c hct) ?_ ha
    rcases hm with ⟨m, rfl, -⟩ | ⟨m, dev, rfl, -⟩ | ⟨fl, m, rfl, -⟩ <;> trivial
  have hpar' : g'.inodes par = some { pd with ents := entPut pd.ents n A.fs.next, link := pd.link + 1 } := by
    rw [e1, upd_ne _ _ hparn, upd_same]
  have hst : Stable A.fs g' c.changes := by
    refine Stable.edit T hld hgd hpd hdir hpar' rfl rfl ?_ ?_
    · intro m hm' _
      have : n ≠ m := fun e => by subst e; rw [← hpe] at hm'; exact hm' hm.changes
      dsimp only
      rw [entGet_entPut, if_neg this]
    · intro q i nd _ _ _ hne hi
      refine ⟨nd, ?_, rfl, fun _ => ⟨rfl, rfl⟩⟩
      have : i ≠ A.fs.next := fun e => by rw [e, hn0] at hi; cases hi
      rw [e1, upd_ne _ _ this, upd_ne _ _ hne]; exact hi
  have hw' : g'.walk p = some (some A.fs.next, some par) := by
    obtain ⟨⟨b, hb⟩⟩ := hld
    have hclear : Clear c.changes d := by
      intro q hq hpre
      have hpq : q = p := by
        rcases hm with ⟨m, rfl, -⟩ | ⟨m, dev, rfl, -⟩ | ⟨fl, m, rfl, -⟩ <;> simp [Call.changes] at hq
        · exact hq
        · exact hq
        · exact hq.2
      rw [hpq, hpe] at hpre
      have := hpre.length_le
      simp at this
      omega
    have := hst.walk T hgd hclear
    rw [hb] at this
    rw [hpe, walk_snoc this]
    simp only [hpar']
    rw [show ({ pd with ents := entPut pd.ents n A.fs.next, link := pd.link + 1 } : Inode).isDir = pd.isDir from rfl, if_pos hdir,
      entGet_entPut, if_pos rfl]
  refine .commitTo R hp hfr ha hinv (by rw [e2]) hst ⟨rfl, hm.changes, hw', hparn⟩ ?_
  intro i
  have hsn : s.fs.inodes A.fs.next = none := by
    cases hh : s.fs.inodes A.fs.next with
    | none => rfl
    | some x => have := R.frs.bound _ _ hh; rw [R.next] at this; omega
  by_cases hi : i = A.fs.next
  · subst hi
    have hun := R.unused hsn hn0
    have r := (R.ino A.fs.next).data (fun u => by rw [hun u]; exact ⟨rfl, rfl⟩)
    have rh := (R.ino A.fs.next).held
    rw [tot_zero (fun u => by rw [hun u]), tot_zero (fun u => by rw [hun u])] at rh
    rw [show ({ s.fs with next := A.fs.next + 1 } : Fs).inodes A.fs.next = none from hsn, e1, upd_same]
    refine InoRel.birth (fun u => by rw [hun u]; exact ⟨rfl, rfl, rfl, rfl⟩) rfl (by simp [sig]) rfl htN ?_ ?_ ?_
    · intro hz
      have hf : new.isFile = true := by simpa [sig] using hz
      rw [(e3 hf).1, (e3 hf).2, e5, if_pos hf]
      refine ⟨r.1.trans hnf, r.2.trans hnd, upd_same _ _ _, upd_same _ _ _, by rw [upd_same, hnh], ?_, ?_⟩
      · cases new <;> simp [New.isFile] at hf; rfl
      · cases new <;> simp [New.isFile] at hf; rfl
    · intro hz
      have hf : new.isFile = false := by simpa [sig] using hz
      rw [(e4 hf).1, (e4 hf).2]; exact r
    · rw [e5]
      simp only [sig, decide_true, Bool.and_true]
      cases hf : new.isFile
      · simp; omega
      · simp; omega
  · have hh : holds A.held c (new.out A.fs.next) i = A.held i := by
      rw [e5]; split
      · rw [upd_ne _ _ hi]
      · rfl
    have hfo : g'.fobj i = A.fs.fobj i := by
      cases hf : new.isFile with
      | true => rw [(e3 hf).1, upd_ne _ _ hi]
      | false => rw [(e4 hf).1]
    have hdk : g'.disk i = A.fs.disk i := by
      cases hf : new.isFile with
      | true => rw [(e3 hf).2, upd_ne _ _ hi]
      | false => rw [(e4 hf).2]
    rw [hh, hfo, hdk]
    by_cases hip : i = par
    · subst hip
      have hpre : d <+: p := by rw [hpe]; exact List.prefix_append _ _
      have own : sig (s.pc t) i = {} := by rw [hpc]; rfl
      obtain ⟨x, y, h1, h2, h3⟩ := R.node hct hpn hpre hld (by rw [own])
      rw [hpd] at h2; cases h2
      rw [hpar', show ({ s.fs with next := A.fs.next + 1 } : Fs).inodes i = some x from h1]
      have hq' : d ++ [n] <+: p := by rw [hpe]; exact List.prefix_rfl
      have hent := R.entry hct hpn hq' hld hpd hdir (fun k => by rw [own]; simp) (by rw [own]; simp) h3
      have hdt := R.data hct hpn hpre hld (by rw [own])
      refine R.put htN hct hpn hpre hld (by rw [own]) (by rw [own]) rfl ?_ ?_ rfl ?_ hdt.1 hdt.2 (Nat.add_comm _ _)
      · simp [sig, Ne.symm hi]
      · simp [sig, Ne.symm hi]
      · refine Same.addBegin h3 htN (by rw [own]) (k := A.fs.next) (n := n) ?_ (by rw [own]; rfl) (by rw [own]; rfl) ?_ hx.symm ?_
        · simp [sig, hpe]
        · rw [hent]; exact hx.symm
        · intro u
          by_cases e : u = t
          · subst e; rw [own]; simp
          · exact R.notRm hct hpn hq' hld hpd hdir e
    · rw [e1, upd_ne _ _ hi, upd_ne _ _ hip]
      refine (R.ino i).keep ?_
      rw [hpc]
      simp [sig, Ne.symm hi, Ne.symm hip]

theorem sim_enter (R : Rel N s A) {o : Option Out} {p : List Name} {par num : Nat} {new : New} (hp : A.pend t = some (c, o))
    (hpc : s.pc t = .enter p par new num) : Sim N s A t (go s t) := by
  have hfr := R.frs.step (go_ok s t)
  have hct := R.callOf hp
  have htN := R.lt hp
  obtain ⟨ho, hch, hw, hne⟩ : TI A.fs c o (.enter p par new num) := by have h := R.thr t c o hp; rw [hpc] at h; exact h
  have hpn := changes_names hch
  obtain ⟨d, n, pd, hpe, hld, hpd, hdir, hx⟩ := walk_par hw
  have hpre : d <+: p := by rw [hpe]; exact List.prefix_append _ _
  have hq' : d ++ [n] <+: p := by rw [hpe]; exact List.prefix_rfl
  have own : sig (s.pc t) par = { add := some (n, num) } := by rw [hpc]; simp [sig, hne.symm, hpe]
  obtain ⟨x, y, h1, h2, h3⟩ := R.node hct hpn hpre hld (by rw [own])
  rw [hpd] at h2; cases h2
  have hxd : x.isDir := by rw [kind_dir h3.kind]; exact hdir
  have hgo : go s t = s.to t (s.fs.set par (some { x with ents := entPut x.ents n num, link := x.link + 1 })) (.store p par new num) := by
    have hlast : p.getLast? = some n := by rw [hpe]; simp
    simp only [go, hpc, h1, hlast, hxd, if_true]
  rw [hgo] at hfr ⊢
  refine .stay R hp hfr rfl ⟨ho, hch, hw, hne⟩ ?_
  intro i
  by_cases hip : i = par
  · subst hip
    rw [hpd]
    simp only [Fs.set, upd_same]
    have hdt := R.data hct hpn hpre hld (by rw [own])
    refine R.put htN hct hpn hpre hld (by rw [own]) (by rw [own]) rfl (by simp [sig, hne.symm]) (by simp [sig, hne.symm]) rfl ?_ hdt.1 hdt.2 (Nat.add_comm _ _)
    refine Same.addEnd h3 htN (by rw [own]) rfl (by rw [own]; rfl) (by rw [own]; rfl) ?_ ?_
    · intro u
      by_cases e : u = t
      · subst e; rw [own]; simp
      · exact R.notRm hct hpn hq' hld hpd hdir e
    · intro u hu k; exact R.notAdd hct hpn hq' hld hpd hdir hu k
  · simp only [Fs.set, upd_ne _ _ hip]
    refine (R.ino i).keep ?_
    rw [hpc]; simp [sig, Ne.symm hip]

/-- Nobody else has anything to do with a number that is not stored yet. -/
theorem Rel.alone (R : Rel N s A) {o : Option Out} {p : List Name} {par num : Nat} {new : New} (hp : A.pend t = some (c, o))
    (hpc : s.pc t = .store p par new num) {u : Nat} (hu : u ≠ t) : sig (s.pc u) num = {} := by
  have hct := R.callOf hp
  have htN := R.lt hp
  obtain ⟨ho, hch, hw, hne⟩ : TI A.fs c o (.store p par new num) := by have h := R.thr t c o hp; rw [hpc] at h; exact h
  have hpn := changes_names hch
  have hl : Leads A.fs p num := ⟨⟨_, hw⟩⟩
  have hfresh : (sig (s.pc t) num).fresh = some (new.ino par num) := by rw [hpc]; simp [sig]
  have hy := ((R.ino num).fresh t _ hfresh).2
  have hkind : (new.ino par num).isDir ∨ (new.ino par num).link ≤ 1 := by
    cases new <;> simp [New.ino, Inode.isDir, newFile]
  have h1 := R.notFresh hct hpn List.prefix_rfl hl hu
  have h2 := R.notOpn hct hpn List.prefix_rfl hl hu
  have h3 := R.notDoom hct hpn List.prefix_rfl hl u
  have away : ∀ {c' q e}, s.call u = some c' → q ++ e ∈ c'.names → Leads A.fs q num → False := by
    intro c' q e hc' hq hlq
    have := uniq_path R.tree (R.good t c hct p hpn) (good_left (R.good u c' hc' _ hq)) hl hlq hy hkind
    subst this
    exact (R.apart t u c c' (Ne.symm hu) hct hc').1 _ hch _ hq (List.prefix_append _ _)
  have h4 : (sig (s.pc u) num).add = none := by
    cases hf : (sig (s.pc u) num).add with
    | none => rfl
    | some e =>
      obtain ⟨n, k⟩ := e
      obtain ⟨c', o', -, hc', ti⟩ := R.thread (sig_ne (fun e => by rw [e] at hf; cases hf))
      obtain ⟨d, g1, g2⟩ := ti_add ti hf
      exact (away hc' (changes_names g1) g2).elim
  have h5 : (sig (s.pc u) num).rm = none := by
    cases hf : (sig (s.pc u) num).rm with
    | none => rfl
    | some n =>
      obtain ⟨c', o', -, hc', ti⟩ := R.thread (sig_ne (fun e => by rw [e] at hf; cases hf))
      obtain ⟨d, g1, g2⟩ := ti_rm ti hf
      exact (away hc' (changes_names g1) g2).elim
  have h6 : (sig (s.pc u) num).up = false := by
    cases hf : (sig (s.pc u) num).up with
    | false => rfl
    | true =>
      obtain ⟨c', o', -, hc', ti⟩ := R.thread (sig_ne (fun e => by rw [e] at hf; cases hf))
      obtain ⟨q, g1, g2⟩ := ti_up ti hf
      exact (away (e := []) hc' (by simpa using g1) g2.leads).elim
  have h7 : (sig (s.pc u) num).cls = false := by
    cases hf : (sig (s.pc u) num).cls with
    | false => rfl
    | true =>
      exfalso
      have huN := R.t_lt (sig_ne (i := num) (fun e => by rw [e] at hf; cases hf))
      have hloc := R.inv.loc num
      rw [hy] at hloc
      have hh := (R.ino num).held
      have hc1 : 1 ≤ tot N (fun u => sig (s.pc u) num) Sig.cls := by
        have := sumTo_le (f := fun u => (Sig.cls (sig (s.pc u) num)).toNat) huN
        rw [hf] at this; exact this
      cases new with
      | dir m => have := hloc.2.2; simp [New.ino] at this; omega
      | chr m dev => have := hloc.2.2.1; simp [New.ino] at this; omega
      | file m =>
        have := hloc.2.2.1
        simp [New.ino, newFile] at this
        have ho1 : (sig (s.pc t) num).opn = true := by rw [hpc]; simp [sig, New.isFile]
        have hc2 : 1 ≤ tot N (fun u => sig (s.pc u) num) Sig.opn := by
          have := sumTo_le (f := fun u => (Sig.opn (sig (s.pc u) num)).toNat) htN
          rw [ho1] at this; exact this
        omega
  generalize sig (s.pc u) num = z at *
  cases z; simp_all

theorem sim_store (R : Rel N s A) {o : Option Out} {p : List Name} {par num : Nat} {new : New} (hp : A.pend t = some (c, o))
    (hpc : s.pc t = .store p par new num) : Sim N s A t (go s t) := by
  have hfr := R.frs.step (go_ok s t)
  have hct := R.callOf hp
  obtain ⟨ho, hch, hw, hne⟩ : TI A.fs c o (.store p par new num) := by have h := R.thr t c o hp; rw [hpc] at h; exact h
  have hgo : go s t = s.to t (s.fs.set num (some (new.ino par num))) (.log [par, num] (new.rest p num)) := by
    simp only [go, hpc]
  rw [hgo] at hfr ⊢
  refine .stay R hp hfr rfl ?_ ?_
  · cases new with
    | dir => exact ho
    | chr => exact ho
    | file => exact ⟨ho, hch, ⟨⟨_, hw⟩⟩⟩
  · intro i
    by_cases hi : i = num
    · subst hi
      simp only [Fs.set, upd_same]
      refine InoRel.store (R.ino i) (fun u hu => R.alone hp hpc hu) (by rw [hpc]; simp [sig]) ?_ rfl rfl rfl rfl ?_
      · rw [hpc]; cases new <;> simp [sig, New.isFile, New.rest, After.opens]
      · cases new with
        | dir => simp [New.ino, initEnts, dot, dotdot]
        | chr => simp [New.ino]
        | file => simp [New.ino, newFile]
    · simp only [Fs.set, upd_ne _ _ hi]
      refine (R.ino i).keep ?_
      rw [hpc]
      cases new <;> simp [sig, New.rest, After.opens, Ne.symm hi]

theorem sim_log (R : Rel N s A) {o : Option Out} {is : List Nat} {k : After} (hp : A.pend t = some (c, o))
    (hpc : s.pc t = .log is k) : Sim N s A t (go s t) := by
  have hfr := R.frs.step (go_ok s t)
  have ti : AfterOk A.fs c o k := by have h := R.thr t c o hp; rw [hpc] at h; exact h
  cases is with
  | nil =>
    simp only [go, hpc] at hfr ⊢
    cases k with
    | ret r =>
      cases ti
      exact .ret R hp (.refl _) hfr (fun i => by rw [hpc]; rfl) (alike_refl _)
    | openObj p i => exact .move R hp (.refl _) hfr (fun i => by rw [hpc]; rfl) ti
    | dom old new => exact .move R hp (.refl _) hfr (fun i => by rw [hpc]; rfl) ti
  | cons i is =>
    simp only [go, hpc] at hfr ⊢
    exact .move R hp (.refl _) hfr (fun i => by rw [hpc]; rfl) ti

theorem sim_logw (R : Rel N s A) {o : Option Out} {i : Nat} {rec : Option Inode} {is : List Nat} {k : After}
    (hp : A.pend t = some (c, o)) (hpc : s.pc t = .logw i rec is k) : Sim N s A t (go s t) := by
  have hfr := R.frs.step (go_ok s t)
  have ti : AfterOk A.fs c o k := by have h := R.thr t c o hp; rw [hpc] at h; exact h
  simp only [go, hpc] at hfr ⊢
  exact .move R hp ⟨rfl, rfl, rfl, rfl⟩ hfr (fun i => by rw [hpc]; rfl) ti

theorem sim_openObj (R : Rel N s A) {o : Option Out} {p : List Name} {i : Nat}
    (hp : A.pend t = some (c, o)) (hpc : s.pc t = .openObj p i) : Sim N s A t (go s t) := by
  have hfr := R.frs.step (go_ok s t)
  have hct := R.callOf hp
  have htN := R.lt hp
  obtain ⟨ho, hch, hl⟩ : AfterOk A.fs c o (.openObj p i) := by have h := R.thr t c o hp; rw [hpc] at h; exact h
  subst ho
  have hpn := changes_names hch
  simp only [go, hpc, State.finOpen] at hfr ⊢
  have own : sig (s.pc t) i = { opn := true } := by rw [hpc]; simp [sig]
  have ro := (R.ino i).opn t (by rw [own])
  have e : s.fs.openObj i 0 = { s.fs with fobj := upd s.fs.fobj i (some 0), disk := upd s.fs.disk i (some []) } := by
    simp only [Fs.openObj, ro.1, ro.2.1]; rfl
  rw [e] at hfr ⊢
  refine .done R hp hfr rfl ?_
  intro j
  by_cases hj : j = i
  · subst hj
    simp only [upd_same]
    refine InoRel.opened (R.ino j) (by rw [own]) ?_ (by rw [own]) htN ?_
    · intro u
      by_cases e : u = t
      · subst e; rw [own]
      · exact R.notFresh hct hpn List.prefix_rfl hl e
    · intro u hu; rw [R.idle u hu]; rfl
  · simp only [upd_ne _ _ hj]
    refine (R.ino j).keep ?_
    rw [hpc]; simp [sig, Ne.symm hj]

/-! ## Stat, open -/

theorem sim_get (R : Rel N s A) {o : Option Out} {p : List Name} {i : Nat}
    (hp : A.pend t = some (c, o)) (hpc : s.pc t = .get p i) : Sim N s A t (go s t) := by
  have hfr := R.frs.step (go_ok s t)
  have hct := R.callOf hp
  obtain ⟨rfl, rfl, hl⟩ : TI A.fs c o (.get p i) := by have h := R.thr t c o hp; rw [hpc] at h; exact h
  obtain ⟨x, y, h1, h2, h3⟩ := R.node hct (p := p) (by simp [Call.names]) List.prefix_rfl hl (by rw [hpc]; rfl)
  simp only [go, hpc, h1] at hfr ⊢
  obtain ⟨⟨b, hw⟩⟩ := hl
  refine .fail R hp hfr (fun i => by rw [hpc]; rfl) (o := .stat (statOf i y)) (by simp only [atomic, Fs.stat, hw, h2]) ?_ rfl
  simp [alike, statOf, h3.kind, h3.mode, h3.size]

/-- What open of an existing path does to the inode. -/
def openEff (flags : BitVec 32) (nd : Inode) (fo : Option Nat) (dk : Option (List UInt8)) :
    Errno ⊕ (Inode × Option Nat × Option (List UInt8) × Nat) :=
  if flags &&& (oCREAT ||| oEXCL) = oCREAT ||| oEXCL then .inl .EEXIST
  else match nd.kind with
    | .sock => .inl .ENXIO
    | .file =>
      if flags &&& oTRUNC = oTRUNC then .inr ({ nd with size := 0, ref := nd.ref + 1 }, some 0, some [], 0)
      else .inr ({ nd with ref := nd.ref + 1 }, (match fo with | some x => some x | none => some nd.size),
        (match fo with | some _ => dk | none => some (dk.getD [])), nd.size)
    | _ => .inr ({ nd with ref := nd.ref + 1 }, fo, dk, nd.size)

theorem openEff_eq {fs : Fs} {i : Nat} {nd : Inode} (hi : fs.inodes i = some nd) (hdk : nd.kind = .file → fs.disk i ≠ none)
    (flags : BitVec 32) :
    fs.openExisting i flags = match openEff flags nd (fs.fobj i) (fs.disk i) with
      | .inl e => (fs, .failed (.err e))
      | .inr (nd', fo', dk', sz) =>
        ({ fs with inodes := upd fs.inodes i (some nd'), fobj := upd fs.fobj i fo', disk := upd fs.disk i dk' }, .opened i sz) := by
  simp only [Fs.openExisting, openEff, hi]
  split
  · rfl
  · cases hk : nd.kind with
    | sock => rfl
    | file =>
      dsimp only
      split
      · cases hd : fs.disk i with
        | none => exact absurd hd (hdk hk)
        | some d => simp [Fs.set, Fs.openObj, Fs.rmHost]
      · cases hf : fs.fobj i with
        | some x =>
          have e1 : upd fs.fobj i (some x) = fs.fobj := by rw [← hf, upd_self]
          simp only [Fs.openObj, hf, Fs.set, e1, upd_self]
        | none => simp only [Fs.openObj, hf, Fs.set]
    | dir => simp only [Fs.set, upd_self]
    | chr => simp only [Fs.set, upd_self]

theorem sim_openGet (R : Rel N s A) {o : Option Out} {p : List Name} {i : Nat} {fl : BitVec 32}
    (hp : A.pend t = some (c, o)) (hpc : s.pc t = .openGet p i fl) : Sim N s A t (go s t) := by
  have hfr := R.frs.step (go_ok s t)
  have hct := R.callOf hp
  have htN := R.lt hp
  obtain ⟨rfl, ⟨m, rfl⟩, hl⟩ : TI A.fs c o (.openGet p i fl) := by have h := R.thr t c o hp; rw [hpc] at h; exact h
  have hpn : p ∈ (Call.open p fl m).names := by simp [Call.names]
  have own : ∀ j, sig (s.pc t) j = {} := fun j => by rw [hpc]; rfl
  obtain ⟨x, y, h1, h2, h3⟩ := R.node hct hpn List.prefix_rfl hl (by rw [own])
  have hdt := R.data hct hpn List.prefix_rfl hl (by rw [own])
  have hloc := R.inv.loc i
  rw [h2] at hloc
  have hdk : y.kind = .file → A.fs.disk i ≠ none := by
    intro hk; simp only [LocalAt, hk] at hloc
    obtain ⟨⟨d, hd, -⟩, -⟩ := hloc
    rw [hd]; simp
  have ey := openEff_eq h2 hdk fl
  have ex := openEff_eq h1 (fun hk => by rw [hdt.2]; exact hdk (by rw [← h3.kind]; exact hk)) fl
  have hl' := hl
  obtain ⟨⟨b, hw⟩⟩ := hl'
  have hat : atomic A.fs (.open p fl m) = match A.fs.openExisting i fl with
    | (fs', .opened i z) => some (fs', .opened i z)
    | (fs', .failed r) => atomic.conv (fs', r) := by
    simp only [atomic, Fs.openP, hw]
    rfl
  rw [hdt.1, hdt.2] at ex
  have hrel : (∃ e, openEff fl y (A.fs.fobj i) (A.fs.disk i) = .inl e ∧ openEff fl x (A.fs.fobj i) (A.fs.disk i) = .inl e) ∨
      ∃ sz' fo dk sz, openEff fl y (A.fs.fobj i) (A.fs.disk i) = .inr ({ y with size := sz', ref := y.ref + 1 }, fo, dk, sz) ∧
        openEff fl x (A.fs.fobj i) (A.fs.disk i) = .inr ({ x with size := sz', ref := x.ref + 1 }, fo, dk, sz) := by
    simp only [openEff, h3.kind, h3.size]
    split
    · exact .inl ⟨_, rfl, rfl⟩
    · cases hk : y.kind with
      | sock => exact .inl ⟨_, rfl, rfl⟩
      | file =>
        dsimp only
        split
        · exact .inr ⟨0, _, _, _, rfl, rfl⟩
        · exact .inr ⟨y.size, _, _, _, rfl, by rw [← h3.size]⟩
      | dir => exact .inr ⟨y.size, _, _, _, rfl, by rw [← h3.size]⟩
      | chr => exact .inr ⟨y.size, _, _, _, rfl, by rw [← h3.size]⟩
  rcases hrel with ⟨e, hy, hx⟩ | ⟨sz', fo, dk, sz, hy, hx⟩
  · rw [hy] at ey; rw [hx] at ex
    dsimp only at ex ey
    have hgo : go s t = s.fin t s.fs (.ret (.err e)) := by simp only [go, hpc, ex]
    rw [hgo] at hfr ⊢
    exact .fail' R hp hfr own (by rw [hat, ey]; rfl) rfl
  · rw [hy] at ey; rw [hx] at ex
    dsimp only at ex ey
    have hgo := show go s t = s.finOpen t { s.fs with inodes := upd s.fs.inodes i (some { x with size := sz', ref := x.ref + 1 }), fobj := upd s.fs.fobj i fo, disk := upd s.fs.disk i dk } i sz by
      simp only [go, hpc, ex]
    rw [hgo] at hfr ⊢
    have ha : atomic A.fs (.open p fl m) = some ({ A.fs with inodes := upd A.fs.inodes i (some { y with size := sz', ref := y.ref + 1 }), fobj := upd A.fs.fobj i fo, disk := upd A.fs.disk i dk }, .opened i sz) := by
      rw [hat, ey]
    refine .commitFin R hp hfr ha (atomic_inv R.inv (R.good t _ hct) trivial ha) R.next ?_ ?_
    · refine Stable.attr _ (fun j nd hj => ?_)
      by_cases e : j = i
      · subst e; rw [h2] at hj; cases hj
        exact ⟨_, upd_same _ _ _, rfl, fun _ => ⟨rfl, rfl⟩⟩
      · exact ⟨nd, (upd_ne _ _ e).trans hj, rfl, fun _ => ⟨rfl, rfl⟩⟩
    · intro j
      by_cases e : j = i
      · subst e
        simp only [upd_same, holds]
        refine R.put htN hct hpn List.prefix_rfl hl (by rw [own]) (by rw [own]) rfl rfl rfl rfl ?_ rfl rfl (by omega)
        exact Same.attrs h3 htN (by rw [own]) (by rw [own]) h3.kind h3.mode rfl
          (by rw [h3.ref]) rfl rfl rfl (by rw [own]) (fun _ => ⟨rfl, rfl⟩)
      · simp only [upd_ne _ _ e, holds]
        exact (R.ino j).keep (by rw [own])

end Verif.NameConc
