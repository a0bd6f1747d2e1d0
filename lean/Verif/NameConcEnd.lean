import Verif.NameConcEdit

/-! Steps of unlink, rmdir, rename and close. -/

namespace Verif.NameConc
open Verif.Path Verif.Fs

variable {N : Nat} {s : State} {A : Abs} {t : Nat} {c : Call}

theorem loc_closed {y : Inode} {fo dk h} (hl : LocalAt (some y) fo dk h) (hr : y.ref = 0) : fo = none := by
  unfold LocalAt at hl
  cases hk : y.kind <;> simp only [hk, hr] at hl
  · simpa using hl.2.1
  all_goals exact hl.1

theorem loc_disk {y : Inode} {fo dk h} (hl : LocalAt (some y) fo dk h) (hr : y.kind ≠ .file) : dk = none := by
  unfold LocalAt at hl
  cases hk : y.kind <;> simp only [hk] at hl
  · exact absurd hk hr
  all_goals exact hl.2.1

theorem last_snoc {d : List Name} {n : Name} : (d ++ [n]).getLast? = some n := by simp

/-- The atomic unlink of something that is not a directory, in a writable directory. -/
theorem unlink_eff {g : Fs} {p : List Name} {i par : Nat} {n : Name} {y pd : Inode} (hw : g.walk p = some (some i, some par))
    (hy : g.inodes i = some y) (hyd : y.isDir = false) (hpd : g.inodes par = some pd) (hdir : pd.isDir)
    (hm : pd.mode &&& sIWALL ≠ 0) (hlast : p.getLast? = some n) (hent : entGet pd.ents n = some i) (hne : i ≠ par)
    (hdk : y.kind = .file → g.disk i ≠ none) :
    ∃ g', atomic g (.unlink p) = some (g', .ret (.ok 0)) ∧
      (∀ j, g'.inodes j = if j = par then some { pd with ents := entDel pd.ents n, link := pd.link - 1 }
        else if j = i then (if y.link - 1 = 0 ∧ y.ref = 0 then none else some { y with link := y.link - 1 }) else g.inodes j) ∧
      g'.next = g.next ∧ g'.fobj = g.fobj ∧
      (∀ j, g'.disk j = if j = i ∧ y.link - 1 = 0 ∧ y.ref = 0 ∧ y.kind = .file then none else g.disk j) := by
  have hp1 : (g.set i (some { y with link := y.link - 1 })).inodes par = some pd := (upd_ne _ _ hne.symm).trans hpd
  have hrm : (g.set i (some { y with link := y.link - 1 })).removeFromParent par p =
      ((g.set i (some { y with link := y.link - 1 })).set par (some { pd with ents := entDel pd.ents n, link := pd.link - 1 }), .ok 0) := by
    simp only [Fs.removeFromParent, hp1, hdir, if_true, if_neg hm, hlast, hent]
  have hfile : y.isFile = decide (y.kind = .file) := by
    cases hk : y.kind <;> simp [Inode.isFile, hk]
  have hpanic : ¬ (y.isFile = true ∧ y.link - 1 = 0 ∧ y.ref = 0 ∧ g.disk i = none) := by
    rintro ⟨h1, -, -, h2⟩
    rw [hfile] at h1
    exact hdk (by simpa using h1) h2
  let fs2 := (g.set i (some { y with link := y.link - 1 })).set par (some { pd with ents := entDel pd.ents n, link := pd.link - 1 })
  let fs3 := if y.link - 1 = 0 ∧ y.ref = 0 then (if y.isFile then (fs2.set i none).rmHost i else fs2.set i none) else fs2
  have key : (∀ j, fs3.inodes j = if j = par then some { pd with ents := entDel pd.ents n, link := pd.link - 1 }
        else if j = i then (if y.link - 1 = 0 ∧ y.ref = 0 then none else some { y with link := y.link - 1 }) else g.inodes j) ∧
      fs3.next = g.next ∧ fs3.fobj = g.fobj ∧
      (∀ j, fs3.disk j = if j = i ∧ y.link - 1 = 0 ∧ y.ref = 0 ∧ y.kind = .file then none else g.disk j) := by
    by_cases hz : y.link - 1 = 0 ∧ y.ref = 0
    · simp only [fs3, fs2, hz, and_self, if_true, true_and, hfile]
      by_cases hf : y.kind = .file
      · simp only [hf, decide_true, if_true, Fs.rmHost, Fs.set, and_true, true_and]
        refine ⟨fun j => ?_, fun j => ?_⟩
        · by_cases e : j = i
          · subst e; simp [hne]
          · by_cases e' : j = par
            · subst e'; simp [e]
            · simp [e, e']
        · by_cases e : j = i
          · subst e; simp
          · simp [e]
      · simp only [hf, decide_false, Bool.false_eq_true, if_false, Fs.set, and_false, true_and]
        refine ⟨fun j => ?_, fun j => trivial⟩
        by_cases e : j = i
        · subst e; simp [hne]
        · by_cases e' : j = par
          · subst e'; simp [e]
          · simp [e, e']
    · have hz' : ∀ j, ¬ (j = i ∧ y.link - 1 = 0 ∧ y.ref = 0 ∧ y.kind = .file) := fun j h => hz ⟨h.2.1, h.2.2.1⟩
      simp only [fs3, fs2, if_neg hz, if_neg (hz' _), Fs.set, true_and]
      refine ⟨fun j => ?_, fun j => trivial⟩
      by_cases e' : j = par
      · subst e'; simp
      · by_cases e : j = i
        · subst e; simp [hne]
        · simp [e, e']
  have heq : ∃ g', g.unlink p = (g', .ok 0) ∧ g'.inodes = fs3.inodes ∧ g'.next = fs3.next ∧ g'.fobj = fs3.fobj ∧ g'.disk = fs3.disk := by
    simp only [Fs.unlink, hw, hy, hyd, hrm, Bool.false_eq_true, if_false]
    split
    · rename_i h; exact absurd h hpanic
    · split
      · exact ⟨_, rfl, rfl, rfl, rfl, rfl⟩
      · exact ⟨_, rfl, rfl, rfl, rfl, rfl⟩
  obtain ⟨g', q1, q2, q3, q4, q5⟩ := heq
  exact ⟨g', by simp only [atomic, q1]; rfl, by rw [q2]; exact key.1, q3.trans key.2.1, q4.trans key.2.2.1, by rw [q5]; exact key.2.2.2⟩

/-- Nobody else is about to take back or to enter a link of what is the last link of a file. -/
theorem Rel.lastLink (R : Rel N s A) (hct : s.call t = some c) {p : List Name} (hch : p ∈ c.changes) {i : Nat} {x y : Inode}
    (hl : Leads A.fs p i) (hy : A.fs.inodes i = some y) (hyd : y.isDir = false) (own : (sig (s.pc t) i).up = false)
    (h : Same N (fun u => sig (s.pc u) i) x y) : (x.link - 1 = 0 ↔ y.link - 1 = 0) := by
  have e := R.plainLink hy hyd h
  have hpos := leads_link R.tree (R.good t _ hct p (changes_names hch)) hl hy hyd
  by_cases h1 : y.link ≤ 1
  · have : tot N (fun u => sig (s.pc u) i) Sig.up = 0 := tot_zero (fun u => by
      by_cases e : u = t
      · subst e; exact own
      · cases hf : (sig (s.pc u) i).up with
        | false => rfl
        | true =>
          exfalso
          obtain ⟨c', o', -, hc', ti⟩ := R.thread (sig_ne (fun e => by rw [e] at hf; cases hf))
          obtain ⟨q, g1, g2⟩ := ti_up ti hf
          have := uniq_path R.tree (R.good t _ hct p (changes_names hch)) (R.good u c' hc' _ g1) hl g2.leads hy (.inr h1)
          subst this
          exact (R.apart t u c c' (Ne.symm e) hct hc').1 _ hch _ g1 List.prefix_rfl)
    omega
  · omega

/-- The parent of a path is not the stray directory. -/
theorem walk_ne7 {g : Fs} (T : Tree g.inodes g.next) {p : List Name} (hg : GoodPath p) {x : Option Nat} {par : Nat}
    (h : g.walk p = some (x, some par)) : par ≠ 7 := by
  obtain ⟨r, hr, L⟩ := look T p hg
  rw [h] at hr; cases hr
  cases L with
  | found _ _ _ _ _ hl => exact T.live_ne7 hl
  | free _ _ _ _ hl => exact T.live_ne7 hl

theorem walk_ne {g : Fs} (T : Tree g.inodes g.next) {p : List Name} (hg : GoodPath p) {i par : Nat}
    (h : g.walk p = some (some i, some par)) : i ≠ par := by
  obtain ⟨r, hr, L⟩ := look T p hg
  rw [h] at hr; cases hr
  cases L with
  | found _ _ _ _ _ _ _ _ _ _ _ h => exact h

/-- After the entry is gone from the specification. -/
theorem walk_removed {g g' : Fs} {C : List (List Name)} (T : Tree g.inodes g.next) (hst : Stable g g' C) {d : List Name} {n : Name} {par : Nat}
    (hgd : GoodPath d) (hcl : Clear C d) (hld : Leads g d par) {pd' : Inode} (hp' : g'.inodes par = some pd') (hd : pd'.isDir)
    (he : entGet pd'.ents n = none) : g'.walk (d ++ [n]) = some (none, some par) := by
  obtain ⟨⟨b, hb⟩⟩ := hld
  have := hst.walk T hgd hcl
  rw [hb] at this
  rw [walk_snoc this]
  simp only [hp', hd, he]; rfl

theorem clear_one {d p : List Name} {n : Name} (h : p = d ++ [n]) : Clear [p] d := by
  intro q hq hpre
  simp at hq
  rw [hq, h] at hpre
  have := hpre.length_le
  simp at this
  omega

theorem Rel.heldKill (R : Rel N s A) (htN : t < N) {j : Nat} (ho : ∀ u, (sig (s.pc u) j).opn = false)
    (hc : (sig (s.pc t) j).cls = false) {z : Sig} (hz : z.cls = false) :
    A.held j = s.held j + tot N (upd (fun u => sig (s.pc u) j) t z) Sig.cls := by
  have r := (R.ino j).held
  have h0 : tot N (fun u => sig (s.pc u) j) Sig.opn = 0 := tot_zero ho
  have h1 := tot_upd htN (fun u => sig (s.pc u) j) z Sig.cls
  simp only [hc, hz] at h1
  simp at h1
  omega

theorem sim_unlinkDec (R : Rel N s A) {o : Option Out} {p : List Name} {i par : Nat}
    (hp : A.pend t = some (c, o)) (hpc : s.pc t = .unlinkDec p i par) (hal : Allowed s (.go t)) : Sim N s A t (go s t) := by
  have hfr := R.frs.step (go_ok s t)
  have hct := R.callOf hp
  have htN := R.lt hp
  have T := R.tree
  obtain ⟨rfl, rfl, hw⟩ : TI A.fs c o (.unlinkDec p i par) := by have h := R.thr t c o hp; rw [hpc] at h; exact h
  have hpn : p ∈ (Call.unlink p).names := by simp [Call.names]
  have hch : p ∈ (Call.unlink p).changes := by simp [Call.changes]
  have hgood := R.good t _ hct p hpn
  obtain ⟨d, n, pd, hpe, hld, hpd, hdir, hx⟩ := walk_par hw
  have hgd : GoodPath d := by rw [hpe] at hgood; exact good_left hgood
  have hpre : d <+: p := by rw [hpe]; exact List.prefix_append _ _
  have hq' : d ++ [n] <+: p := by rw [hpe]; exact List.prefix_rfl
  have hlast : p.getLast? = some n := by rw [hpe]; simp
  have hl : Leads A.fs p i := ⟨⟨_, hw⟩⟩
  have hne := walk_ne T hgood hw
  have own : ∀ j, sig (s.pc t) j = {} := fun j => by rw [hpc]; rfl
  obtain ⟨px, py, h1, h2, h3⟩ := R.node hct hpn hpre hld (by rw [own])
  rw [hpd] at h2; cases h2
  obtain ⟨x, y, g1, hy, g3⟩ := R.node hct hpn List.prefix_rfl hl (by rw [own])
  have hk := kind_dir g3.kind
  cases hxd : x.isDir with
  | true =>
    have hgo : go s t = s.fin t s.fs (.ret (.err .EISDIR)) := by simp only [go, hpc, g1, hxd]; rfl
    rw [hgo] at hfr ⊢
    exact .fail' R hp hfr own (by simp only [atomic, Fs.unlink, hw, hy, ← hk, hxd]; rfl) rfl
  | false =>
  have hyd : y.isDir = false := by rw [← hk]; exact hxd
  have hz := R.lastLink hct hch hl hy hyd (by rw [own]) g3
  have hpos := leads_link T hgood hl hy hyd
  have hxl := R.plainLink hy hyd g3
  have hgo : go s t = s.to t (s.fs.set i (some { x with link := x.link - 1 }))
      (.unlinkRemove p i par x.kind (decide (x.link - 1 = 0 ∧ x.ref = 0))) := by
    simp only [go, hpc, g1, hxd]
    rw [if_neg (by simp), if_neg (by omega)]
  rw [hgo] at hfr ⊢
  have hmode : pd.mode &&& sIWALL ≠ 0 := by
    simp only [Allowed, hpc] at hal
    rw [← h3.mode]; exact hal px h1
  have hloc := R.inv.loc i
  rw [hy] at hloc
  have hdk : y.kind = .file → A.fs.disk i ≠ none := by
    intro hk; simp only [LocalAt, hk] at hloc
    obtain ⟨⟨d, hd, -⟩, -⟩ := hloc
    rw [hd]; simp
  obtain ⟨g', ha, e1, e2, e3, e4⟩ := unlink_eff hw hy hyd hpd hdir hmode hlast hx.symm hne hdk
  have hp' : g'.inodes par = some { pd with ents := entDel pd.ents n, link := pd.link - 1 } := by rw [e1, if_pos rfl]
  have htame : UnlinkTame A.fs p := by
    intro i' par' pd' hw' hpd'
    rw [hw] at hw'; cases hw'
    rw [hpd] at hpd'; cases hpd'
    exact hmode
  have hst : Stable A.fs g' (Call.unlink p).changes := by
    refine Stable.edit T hld hgd hpd hdir hp' rfl rfl ?_ ?_
    · intro m hm' _
      have : m ≠ n := fun e => by subst e; rw [← hpe] at hm'; exact hm' hch
      exact entGet_entDel_ne this
    · intro q j nd hgq hcl hlq hjp hj
      rw [e1, if_neg hjp]
      by_cases e : j = i
      · subst e; rw [hy] at hj; cases hj
        rw [if_pos rfl]
        split
        · rename_i hzero
          have := uniq_path T hgq hgood hlq hl hy (.inr (by omega))
          subst this
          exact absurd List.prefix_rfl (hcl q hch)
        · exact ⟨_, rfl, rfl, fun h => by rw [hyd] at h; cases h⟩
      · rw [if_neg e]; exact ⟨nd, hj, rfl, fun _ => ⟨rfl, rfl⟩⟩
  refine .commitTo R hp hfr ha (atomic_inv R.inv (R.good t _ hct) htame ha) (R.next.trans e2.symm) hst ?_ ?_
  · refine ⟨rfl, hch, ?_, ⟨_, hp', hdir, hmode⟩⟩
    rw [hpe]
    refine walk_removed T hst hgd ?_ hld hp' hdir entGet_entDel_same
    exact clear_one hpe
  · intro j
    rw [e3, e1, e4]
    by_cases e : j = par
    · subst e
      have hji : j ≠ i := hne.symm
      rw [if_pos rfl, if_neg (fun h => hji h.1)]
      simp only [Fs.set, upd_ne _ _ hji, holds, h1]
      have hdt := R.data hct hpn hpre hld (by rw [own])
      have hent := R.entry hct hpn hq' hld hpd hdir (fun k => by rw [own]; simp) (by rw [own]; simp) h3
      refine R.put htN hct hpn hpre hld (by rw [own]) (by rw [own]) ?_ rfl rfl rfl ?_ hdt.1 hdt.2 (Nat.add_comm _ _)
      · simp [sig, hne]
      · refine Same.rmBegin h3 htN (by rw [own]) (n := n) (k := i) ?_ (by rw [own]; rfl) (by rw [own]; rfl) ?_ hx.symm (T.nodup hpd) ?_ ?_
        · simp [sig, hlast]
        · rw [hent]; exact hx.symm
        · rw [T.dlink hpd hdir (walk_ne7 T hgood hw)]; omega
        · intro u k
          by_cases e : u = t
          · subst e; rw [own]; simp
          · exact R.notAdd hct hpn hq' hld hpd hdir e k
    · rw [if_neg e]
      by_cases e' : j = i
      · subst e'
        have hdt := R.data hct hpn List.prefix_rfl hl (by rw [own])
        rw [if_pos rfl]
        simp only [Fs.set, upd_same, holds]
        by_cases hzero : y.link - 1 = 0 ∧ y.ref = 0
        · have hzx : x.link - 1 = 0 ∧ x.ref = 0 := ⟨hz.2 hzero.1, g3.ref.trans hzero.2⟩
          rw [if_pos hzero]
          have hfo : A.fs.fobj j = none := loc_closed hloc hzero.2
          have hfile : y.kind ≠ .file → A.fs.disk j = none := loc_disk hloc
          have hdk' : (if True ∧ y.link - 1 = 0 ∧ y.ref = 0 ∧ y.kind = .file then none else A.fs.disk j) = none := by
            split
            · rfl
            · rename_i hn; exact hfile (fun hk => hn ⟨trivial, hzero.1, hzero.2, hk⟩)
          rw [hdk', hdt.1, hfo, hdt.2]
          refine InoRel.kill (b := decide (x.kind = .file)) (fun u _ => R.notDoom hct hpn List.prefix_rfl hl u)
            (fun u hu => R.notFresh hct hpn List.prefix_rfl hl hu) (fun u hu => R.notOpn hct hpn List.prefix_rfl hl hu)
            ?_ rfl rfl ?_ ?_ ?_
          · simp [sig, hzx]
          · intro hb; exact hdk (by rw [← g3.kind]; simpa using hb)
          · intro hb; exact hfile (by rw [← g3.kind]; simpa using hb)
          · exact R.heldKill htN (fun u => by
              by_cases e : u = t
              · subst e; rw [own]
              · exact R.notOpn hct hpn List.prefix_rfl hl e) (by rw [own]) rfl
        · have hzx : ¬ (x.link - 1 = 0 ∧ x.ref = 0) := fun h => hzero ⟨hz.1 h.1, g3.ref.symm.trans h.2⟩
          rw [if_neg hzero, if_neg (fun h => hzero ⟨h.2.1, h.2.2.1⟩)]
          have esig : sig (.unlinkRemove p j par x.kind (decide (x.link - 1 = 0 ∧ x.ref = 0))) j = {} := by
            simp only [sig, if_neg hne.symm, hzx]; rfl
          rw [esig]
          refine R.put htN hct hpn List.prefix_rfl hl (by rw [own]) (by rw [own]) rfl rfl rfl rfl ?_ hdt.1 hdt.2 (Nat.add_comm _ _)
          refine Same.attrs g3 htN (by rw [own]) (by rw [own]) g3.kind g3.mode g3.size g3.ref rfl rfl rfl ?_ ?_
          · rw [own]; simp; omega
          · intro hdir; rw [Inode.isDir, hdir] at hyd; cases hyd
      · rw [if_neg e', if_neg (fun h => e' h.1)]
        simp only [Fs.set, upd_ne _ _ e', holds]
        refine (R.ino j).keep ?_
        rw [own]; simp [sig, Ne.symm e, Ne.symm e']

/-- The entry goes, and nothing else changes. -/
theorem sim_remove (R : Rel N s A) {o : Out} {p : List Name} {par : Nat} {q : Pc}
    (hp : A.pend t = some (c, some o)) (hch : p ∈ c.changes) (hw : A.fs.walk p = some (none, some par)) (hwr : Writable A.fs par)
    (own : ∀ j, sig (s.pc t) j = { sig q j with rm := if par = j then p.getLast? else none })
    (hrm : ∀ j, (sig q j).rm = none) (had : ∀ j, (sig q j).add = none ∧ (sig q j).fresh = none ∧ (sig q j).opn = false ∧ (sig q j).cls = false)
    (ti : TI A.fs c (some o) q) :
    ∃ fs', s.fs.removeFromParent par p = (fs', .ok 0) ∧ (Fresh (s.to t fs' q) → Sim N s A t (s.to t fs' q)) := by
  have hct := R.callOf hp
  have htN := R.lt hp
  have T := R.tree
  have hpn := changes_names hch
  have hgood := R.good t _ hct p hpn
  obtain ⟨d, n, pd, hpe, hld, hpd, hdir, hx⟩ := walk_par hw
  have hpre : d <+: p := by rw [hpe]; exact List.prefix_append _ _
  have hq' : d ++ [n] <+: p := by rw [hpe]; exact List.prefix_rfl
  have hlast : p.getLast? = some n := by rw [hpe]; simp
  obtain ⟨px, py, h1, h2, h3⟩ := R.node hct hpn hpre hld (by rw [own]; exact (had par).2.1)
  rw [hpd] at h2; cases h2
  obtain ⟨pd', h2, -, hmode⟩ := hwr
  rw [hpd] at h2; cases h2
  have hpxd : px.isDir := by rw [kind_dir h3.kind]; exact hdir
  obtain ⟨k, hk⟩ := h3.rmOld t n (by rw [own]; simp [hlast])
  refine ⟨s.fs.set par (some { px with ents := entDel px.ents n, link := px.link - 1 }), ?_, ?_⟩
  · simp only [Fs.removeFromParent, h1, hpxd, if_true, h3.mode, if_neg hmode, hlast, hk]
  · intro hfr
    refine .stay R hp hfr rfl ti ?_
    intro j
    by_cases e : j = par
    · subst e
      rw [hpd]
      simp only [Fs.set, upd_same]
      have hnd : (sig q j).doom = none := by
        have := R.notDoom hct hpn hpre hld t
        rw [own] at this; exact this
      have hdt := R.data hct hpn hpre hld (by rw [own]; exact (had j).2.2.1)
      refine R.put htN hct hpn hpre hld (by rw [own]; exact (had j).2.2.1) (by rw [own]; exact (had j).2.2.2) hnd (had j).2.1
        (had j).2.2.1 (had j).2.2.2 ?_ hdt.1 hdt.2 (Nat.add_comm _ _)
      refine Same.rmEnd h3 htN (n := n) (by rw [own]; simp [hlast]) (hrm j) (by rw [own]) (by rw [own]) ?_ ?_ ?_
      · have := h3.dlink (isDir_iff.1 hdir)
        have := T.dlink hpd hdir (walk_ne7 T hgood hw)
        omega
      · intro u hu; exact R.notRm hct hpn hq' hld hpd hdir hu
      · intro u k
        by_cases e : u = t
        · subst e; rw [own]; dsimp only; rw [(had j).1]; simp
        · exact R.notAdd hct hpn hq' hld hpd hdir e k
    · simp only [Fs.set, upd_ne _ _ e]
      refine (R.ino j).keep ?_
      rw [own, if_neg (Ne.symm e)]
      have := hrm j
      generalize sig q j = z at this ⊢
      cases z; simp_all

theorem sim_unlinkRemove (R : Rel N s A) {o : Option Out} {p : List Name} {i par : Nat} {kind : Kind} {zero : Bool}
    (hp : A.pend t = some (c, o)) (hpc : s.pc t = .unlinkRemove p i par kind zero) : Sim N s A t (go s t) := by
  have hfr := R.frs.step (go_ok s t)
  obtain ⟨rfl, hch, hw, hwr⟩ : TI A.fs c o (.unlinkRemove p i par kind zero) := by have h := R.thr t c o hp; rw [hpc] at h; exact h
  obtain ⟨fs', e1, e2⟩ := sim_remove R (q := if zero then .unlinkReap p i par kind else .unlinkDom p i par kind) hp hch hw hwr
    (by intro j; rw [hpc]; cases zero <;> simp [sig]) (by intro j; cases zero <;> rfl)
    (by intro j; cases zero <;> exact ⟨rfl, rfl, rfl, rfl⟩) (by cases zero <;> rfl)
  have hgo : go s t = s.to t fs' (if zero then .unlinkReap p i par kind else .unlinkDom p i par kind) := by simp only [go, hpc, e1]
  rw [hgo] at hfr ⊢
  exact e2 hfr

theorem sim_rmdirRemove (R : Rel N s A) {o : Option Out} {p : List Name} {i par : Nat} {rm : Bool}
    (hp : A.pend t = some (c, o)) (hpc : s.pc t = .rmdirRemove p i par rm) : Sim N s A t (go s t) := by
  have hfr := R.frs.step (go_ok s t)
  obtain ⟨rfl, hch, hw, hwr⟩ : TI A.fs c o (.rmdirRemove p i par rm) := by have h := R.thr t c o hp; rw [hpc] at h; exact h
  obtain ⟨fs', e1, e2⟩ := sim_remove R (q := if rm then .rmdirReap i par else .log [par, i] (.ret (.ok 0))) hp hch hw hwr
    (by intro j; rw [hpc]; cases rm <;> simp [sig, After.opens]) (by intro j; cases rm <;> rfl)
    (by intro j; cases rm <;> exact ⟨rfl, rfl, rfl, rfl⟩) (by cases rm <;> rfl)
  have hgo : go s t = s.to t fs' (if rm then .rmdirReap i par else .log [par, i] (.ret (.ok 0))) := by simp only [go, hpc, e1]
  rw [hgo] at hfr ⊢
  exact e2 hfr

/-- The inode goes. -/
theorem sim_reap (R : Rel N s A) {o : Option Out} {i : Nat} {b : Bool} {q : Pc} {fs' : Fs} (hfr : Fresh (s.to t fs' q))
    (hp : A.pend t = some (c, o))
    (own : ∀ j, sig (s.pc t) j = { doom := if i = j then some b else none }) (hq : ∀ j, sig q j = {}) (ti : TI A.fs c o q)
    (e1 : fs'.inodes = upd s.fs.inodes i none) (e2 : fs'.next = s.fs.next) (e3 : fs'.fobj = s.fs.fobj)
    (e4 : fs'.disk = if b then upd s.fs.disk i none else s.fs.disk) : Sim N s A t (s.to t fs' q) := by
  have htN := R.lt hp
  refine .stay R hp hfr e2 ti ?_
  intro j
  rw [e1, e3, e4, hq]
  by_cases e : j = i
  · subst e
    have h0 : (sig (s.pc t) j).doom = some b := by rw [own]; simp
    rw [upd_same]
    refine InoRel.reap (R.ino j) h0 rfl rfl rfl (by rw [own]) htN ?_
    obtain ⟨-, -, -, -, -, -, h⟩ := (R.ino j).doom t b h0
    cases b with
    | true => simp
    | false => exact h rfl
  · rw [upd_ne _ _ e]
    have : (if b then upd s.fs.disk i none else s.fs.disk) j = s.fs.disk j := by cases b <;> simp [e]
    rw [this]
    refine (R.ino j).keep ?_
    rw [own]; simp [Ne.symm e]

theorem Rel.doomed (R : Rel N s A) {i : Nat} {b : Bool} (own : (sig (s.pc t) i).doom = some b) :
    (∃ nd, s.fs.inodes i = some nd) ∧ (b = true → ∃ d, s.fs.disk i = some d) := by
  obtain ⟨h1, -, -, -, -, h2, -⟩ := (R.ino i).doom t b own
  refine ⟨h1, fun hb => ?_⟩
  cases hd : s.fs.disk i with
  | none => exact absurd hd (h2 hb)
  | some d => exact ⟨d, rfl⟩

theorem sim_unlinkReap (R : Rel N s A) {o : Option Out} {p : List Name} {i par : Nat} {kind : Kind}
    (hp : A.pend t = some (c, o)) (hpc : s.pc t = .unlinkReap p i par kind) : Sim N s A t (go s t) := by
  have hfr := R.frs.step (go_ok s t)
  have ti : TI A.fs c o (.unlinkReap p i par kind) := by have h := R.thr t c o hp; rw [hpc] at h; exact h
  have own : ∀ j, sig (s.pc t) j = { doom := if i = j then some (decide (kind = .file)) else none } := fun j => by rw [hpc]; rfl
  obtain ⟨-, h2⟩ := R.doomed (i := i) (b := decide (kind = .file)) (by rw [own]; simp)
  by_cases hk : kind = .file
  · obtain ⟨d, hd⟩ := h2 (by simpa using hk)
    have hgo : go s t = s.to t ((s.fs.set i none).rmHost i) (.unlinkDom p i par kind) := by simp only [go, hpc, hk, hd, if_true]
    rw [hgo] at hfr ⊢
    exact sim_reap R hfr hp own (fun _ => rfl) ti rfl rfl rfl (by simp [hk, Fs.rmHost, Fs.set])
  · have hgo : go s t = s.to t (s.fs.set i none) (.unlinkDom p i par kind) := by simp only [go, hpc, hk, if_false]
    rw [hgo] at hfr ⊢
    exact sim_reap R hfr hp own (fun _ => rfl) ti rfl rfl rfl (by simp [hk, Fs.set])

theorem sim_closeReap (R : Rel N s A) {o : Option Out} {i : Nat} {kind : Kind}
    (hp : A.pend t = some (c, o)) (hpc : s.pc t = .closeReap i kind) : Sim N s A t (go s t) := by
  have hfr := R.frs.step (go_ok s t)
  have ti : TI A.fs c o (.closeReap i kind) := by have h := R.thr t c o hp; rw [hpc] at h; exact h
  have own : ∀ j, sig (s.pc t) j = { doom := if i = j then some (decide (kind = .file)) else none } := fun j => by rw [hpc]; rfl
  obtain ⟨-, h2⟩ := R.doomed (i := i) (b := decide (kind = .file)) (by rw [own]; simp)
  by_cases hk : kind = .file
  · obtain ⟨d, hd⟩ := h2 (by simpa using hk)
    have hgo : go s t = s.to t ((s.fs.set i none).rmHost i) (.log [i] (.ret (.ok 0))) := by simp only [go, hpc, hk, hd, if_true]
    rw [hgo] at hfr ⊢
    exact sim_reap R hfr hp own (fun _ => rfl) ti rfl rfl rfl (by simp [hk, Fs.rmHost, Fs.set])
  · have hgo : go s t = s.to t (s.fs.set i none) (.log [i] (.ret (.ok 0))) := by simp only [go, hpc, hk, if_false]
    rw [hgo] at hfr ⊢
    exact sim_reap R hfr hp own (fun _ => rfl) ti rfl rfl rfl (by simp [hk, Fs.set])

theorem sim_rmdirReap (R : Rel N s A) {o : Option Out} {i par : Nat}
    (hp : A.pend t = some (c, o)) (hpc : s.pc t = .rmdirReap i par) : Sim N s A t (go s t) := by
  have hfr := R.frs.step (go_ok s t)
  have ti : TI A.fs c o (.rmdirReap i par) := by have h := R.thr t c o hp; rw [hpc] at h; exact h
  have own : ∀ j, sig (s.pc t) j = { doom := if i = j then some false else none } := fun j => by rw [hpc]; rfl
  obtain ⟨⟨nd, h1⟩, -⟩ := R.doomed (i := i) (b := false) (by rw [own]; simp)
  have hgo : go s t = s.to t (s.fs.set i none) (.log [par, i] (.ret (.ok 0))) := by simp only [go, hpc, h1]
  rw [hgo] at hfr ⊢
  exact sim_reap R hfr hp own (fun _ => rfl) ti rfl rfl rfl rfl

theorem sim_unlinkDom (R : Rel N s A) {o : Option Out} {p : List Name} {i par : Nat} {kind : Kind}
    (hp : A.pend t = some (c, o)) (hpc : s.pc t = .unlinkDom p i par kind) : Sim N s A t (go s t) := by
  have hfr := R.frs.step (go_ok s t)
  have ti : TI A.fs c o (.unlinkDom p i par kind) := by have h := R.thr t c o hp; rw [hpc] at h; exact h
  simp only [go, hpc] at hfr ⊢
  exact .move R hp ⟨rfl, rfl, rfl, rfl⟩ hfr (fun i => by rw [hpc]; rfl) ti

theorem sim_renameDom (R : Rel N s A) {o : Option Out} {old new : List Name}
    (hp : A.pend t = some (c, o)) (hpc : s.pc t = .renameDom old new) : Sim N s A t (go s t) := by
  have hfr := R.frs.step (go_ok s t)
  have ti : TI A.fs c o (.renameDom old new) := by have h := R.thr t c o hp; rw [hpc] at h; exact h
  simp only [TI] at ti
  subst ti
  simp only [go, hpc] at hfr ⊢
  exact .ret R hp ⟨rfl, rfl, rfl, rfl⟩ hfr (fun i => by rw [hpc]; rfl) (alike_refl _)

end Verif.NameConc
