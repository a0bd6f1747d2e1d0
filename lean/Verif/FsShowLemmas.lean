import Verif.FsShow
import Verif.FsToolsSpec

/-! # What `visit_children` shows, by induction on the depth of the tree -/

namespace Verif.FsShow

open Verif.Path Verif.Fs Verif.Kernel Verif.FsTools

/-- Nothing has changed that anybody could see. -/
structure Eqv (s t : State) : Prop where
  inodes : t.fs.inodes = s.fs.inodes
  disk : t.fs.disk = s.fs.disk
  cages : t.cages = s.cages

theorem Eqv.trans {s t u : State} (h : Eqv s t) (h' : Eqv t u) : Eqv s u :=
  ⟨h'.inodes.trans h.inodes, h'.disk.trans h.disk, h'.cages.trans h.cages⟩

def bare (nd : Inode) : Inode := { nd with ref := 0 }

/-- At most numbers of open descriptors differ. -/
def Refs (s t : State) : Prop := ∀ x, (t.fs.inodes x).map bare = (s.fs.inodes x).map bare

theorem Refs.refl (s : State) : Refs s s := fun _ => rfl
theorem Refs.of_eqv {s t u : State} (h : Refs s t) (e : Eqv t u) : Refs s u := fun x => by rw [e.inodes]; exact h x

theorem Refs.get {s t : State} (h : Refs s t) {x : Nat} {nd : Inode} (hx : t.fs.inodes x = some nd) :
    ∃ nd', s.fs.inodes x = some nd' ∧ bare nd = bare nd' := by
  have := h x
  rw [hx] at this
  cases hs : s.fs.inodes x with
  | none => rw [hs] at this; cases this
  | some nd' => rw [hs] at this; exact ⟨nd', rfl, by simpa using this⟩

theorem Refs.get' {s t : State} (h : Refs s t) {x : Nat} {nd : Inode} (hx : s.fs.inodes x = some nd) :
    ∃ nd', t.fs.inodes x = some nd' ∧ bare nd' = bare nd := by
  have := h x
  rw [hx] at this
  cases hs : t.fs.inodes x with
  | none => rw [hs] at this; cases this
  | some nd' => rw [hs] at this; exact ⟨nd', rfl, by simpa using this⟩

theorem bare_eq {a b : Inode} (h : bare a = bare b) : a.kind = b.kind ∧ a.mode = b.mode ∧ a.link = b.link ∧ a.ents = b.ents := by
  simp only [bare, Inode.mk.injEq] at h
  exact ⟨h.1, h.2.1, h.2.2.2.1, h.2.2.2.2.2⟩

theorem bare_dir {a b : Inode} (h : bare a = bare b) : a.isDir = b.isDir := by simp only [Inode.isDir, (bare_eq h).1]

theorem Refs.walk {s t : State} (h : Refs s t) {d e : Nat} {ns : List Name} : Walk t.fs.inodes d ns e ↔ Walk s.fs.inodes d ns e := by
  constructor
  · intro w
    induction w with
    | here => exact .here _
    | down a b m _ ih =>
      obtain ⟨x, h1, h2⟩ := h.get a
      exact .down h1 (by rw [← bare_dir h2]; exact b) (by rw [← (bare_eq h2).2.2.2]; exact m) ih
  · intro w
    induction w with
    | here => exact .here _
    | down a b m _ ih =>
      obtain ⟨x, h1, h2⟩ := h.get' a
      exact .down h1 (by rw [bare_dir h2]; exact b) (by rw [(bare_eq h2).2.2.2]; exact m) ih

/-- What the visits print: for every name but `.` and `..`, in the order of the list. -/
inductive Outs {α : Type} (R : Name → List α → Prop) : List Name → List α → Prop
  | nil : Outs R [] []
  | skip {n : Name} {ns : List Name} {o : List α} : ¬ Proper n → Outs R ns o → Outs R (n :: ns) o
  | cons {n : Name} {ns : List Name} {o o' : List α} : Proper n → R n o → Outs R ns o' → Outs R (n :: ns) (o ++ o')

/-- The visitor prints something in `R` and changes nothing. -/
def Shows {α : Type} (f : State → Str → Bool → Run α) (c : Nat) (path : Str) (s0 : State) (nd0 : Inode) (h : Nat) (cwd : Str)
    (R : Name → List α → Prop) : Prop :=
  ∀ (s : State) (cg : Cage) (n : Name) (k : Nat) (kd : Inode), Reach s → Refs s0 s → s.cages c = some cg → cg.cwd = cwd → h ≤ free cg.fds →
    (n, k) ∈ nd0.ents → Proper n → s0.fs.inodes k = some kd →
    ∃ s' o, f s (child path n) kd.isDir = .done s' o ∧ Reach s' ∧ Eqv s s' ∧ R n o

theorem proper_dots {n : Name} (h : ¬ Proper n) : n = dot ∨ n = dotdot := by
  by_cases a : n = dot
  · exact .inl a
  · by_cases b : n = dotdot
    · exact .inr b
    · exact absurd ⟨a, b⟩ h

theorem visitNames_shows {α : Type} {f : State → Str → Bool → Run α} {c : Nat} {path : Str} {P : List Name} {i h : Nat} {cg : Cage} {s0 : State}
    {nd0 : Inode} {R : Name → List α → Prop} (hf : Shows f c path s0 nd0 h cg.cwd R) (hpath : path ≠ []) (hP : cg.path path = P)
    (hfree : h ≤ free cg.fds) (w0 : Walk s0.fs.inodes rootIno P i) (hnd0 : s0.fs.inodes i = some nd0) (hd : nd0.isDir)
    (hkind : ∀ n k kd, (n, k) ∈ nd0.ents → Proper n → s0.fs.inodes k = some kd → modeIsDir kd.mode = kd.isDir) :
    ∀ (L : List Name) (s : State), Reach s → Refs s0 s → s.cages c = some cg → (∀ n ∈ L, ∃ k, (n, k) ∈ nd0.ents) →
      ∃ s' o, visitNames f c path L s = .done s' o ∧ Reach s' ∧ Eqv s s' ∧ Outs R L o := by
  intro L
  induction L with
  | nil => intro s hR _ _ _; exact ⟨s, [], rfl, hR, ⟨rfl, rfl, rfl⟩, .nil⟩
  | cons n L ih =>
    intro s hR hrefs hc hL
    by_cases hpr : Proper n
    · obtain ⟨k, hk⟩ := hL n (by simp)
      have T := hR.inv.fs.tree
      obtain ⟨nd, hnd, hb⟩ := hrefs.get' hnd0
      have hm : (n, k) ∈ nd.ents := by rw [(bare_eq hb).2.2.2]; exact hk
      obtain ⟨hgood, -, -, kd', hkd', -⟩ := T.ent hnd hm hpr
      obtain ⟨kd, hkd, hbk⟩ := hrefs.get hkd'
      obtain ⟨hchild, hne⟩ := child_path (hR.inv.cage c cg hc).2.2 hpath hgood
      rw [hP] at hchild
      have hlead : Leads s cg (child path n) k := by
        unfold Leads; rw [hchild, hrefs.walk]; exact w0.snoc hnd0 hd hk
      obtain ⟨par, hr, -⟩ := hR.inv.walk_found hc hlead
      have hstat : (step s c (.stat (child path n))).2 = { ret := .ok 0, stat := some (statOf k kd') } := by
        simp only [step, hc, Fs.stat, hr, hkd']
      obtain ⟨s1, o1, h1, h2, h3, h4⟩ := hf s cg n k kd hR hrefs hc rfl hfree hk hpr hkd
      obtain ⟨s2, o2, g1, g2, g3, g4⟩ := ih s1 h2 (hrefs.of_eqv h3) (by rw [h3.cages]; exact hc) (fun m hm => hL m (by simp [hm]))
      refine ⟨s2, o1 ++ o2, ?_, g2, h3.trans g3, .cons hpr h4 g4⟩
      have hnd' : ¬ (n = dot ∨ n = dotdot) := fun e => e.elim hpr.1 hpr.2
      have hmd : modeIsDir (statOf k kd').mode = kd.isDir := by
        rw [← hkind n k kd hk hpr hkd, ← (bare_eq hbk).2.1]; rfl
      simp only [visitNames, if_neg hnd', hstat, hmd, h1, g1]
      simp [Run.after]
    · obtain ⟨s2, o2, g1, g2, g3, g4⟩ := ih s hR hrefs hc (fun m hm => hL m (by simp [hm]))
      exact ⟨s2, o2, by simp only [visitNames, if_pos (proper_dots hpr), g1], g2, g3, .skip hpr g4⟩

theorem Outs.append {α : Type} {R : Name → List α → Prop} {A B : List Name} {o o' : List α} (h : Outs R A o) (h' : Outs R B o') :
    Outs R (A ++ B) (o ++ o') := by
  induction h with
  | nil => exact h'
  | skip a _ ih => exact .skip a ih
  | cons a b _ ih => rw [List.append_assoc]; exact .cons a b ih

/-- One buffer: some entries, at least one if there are any, and their names. -/
theorem fill_some {es : List (Str × Nat)} (hs : Getdents.Sane es) :
    dents 65536 (((Getdents.fill 65536 es 0).1.flatMap Getdents.Rec.bytes).take (Getdents.fill 65536 es 0).2) =
      some ((es.take (Getdents.fill 65536 es 0).1.length).map (·.1)) ∧ (Getdents.fill 65536 es 0).1.length ≤ es.length ∧
    (es ≠ [] → 0 < (Getdents.fill 65536 es 0).1.length) ∧ (Getdents.fill 65536 es 0).1.length * 8 ≤ (Getdents.fill 65536 es 0).2 := by
  obtain ⟨h1, h2, h3⟩ := Getdents.fill_total 65536 es 0 (by omega)
  have h4 := Getdents.fill_count 65536 es 0
  refine ⟨?_, h3, ?_, by omega⟩
  · rw [List.take_of_length_le (by omega)]
    exact dents_parse _ _ _ (Getdents.parse_fill 65536 es 0 hs 65536 (by omega))
  · intro hne
    cases es with
    | nil => exact absurd rfl hne
    | cons e es =>
      have := (hs e (by simp)).2.1
      rw [Getdents.fill_cons, if_neg (by unfold Getdents.recLen Getdents.clipped; omega)]
      simp

theorem visitLoop_shows {α : Type} {f : State → Str → Bool → Run α} {c : Nat} {path : Str} {P : List Name} {i h fd : Nat} {cg : Cage} {s0 : State}
    {nd0 : Inode} {R : Name → List α → Prop} (hf : Shows f c path s0 nd0 h cg.cwd R)
    (hpath : path ≠ []) (hP : cg.path path = P) (hfree : h + 1 ≤ free cg.fds) (w0 : Walk s0.fs.inodes rootIno P i)
    (hnd0 : s0.fs.inodes i = some nd0) (hd : nd0.isDir)
    (hkind : ∀ n k kd, (n, k) ∈ nd0.ents → Proper n → s0.fs.inodes k = some kd → modeIsDir kd.mode = kd.isDir)
    (hs : Getdents.Sane nd0.ents) (hl : nd0.link ≠ 2) (ofd : fd < maxFd) (ofree : cg.fds fd = none) :
    ∀ (k pos : Nat) (s : State) (nd : Inode), nd0.ents.length - pos < k → Reach s → Refs s0 s → pos ≤ nd0.ents.length →
      s.cages c = some (cg.withSlot fd (some (.file i pos 0#32))) → s.fs.inodes i = some nd →
      ∃ s' o, visitLoop f c path fd k s = .done s' o ∧ Reach s' ∧ s'.fs.inodes = upd s.fs.inodes i (some { nd with ref := nd.ref - 1 }) ∧
        s'.fs.disk = s.fs.disk ∧ s'.cages = upd s.cages c (some cg) ∧ Outs R ((nd0.ents.drop pos).map (·.1)) o := by
  intro k
  induction k with
  | zero => intro pos s nd hk; omega
  | succ k ih =>
    intro pos s nd hk hR hrefs hpos hc hnd
    obtain ⟨nd', hnd', hb⟩ := hrefs.get' hnd0
    rw [hnd] at hnd'; cases hnd'
    have hdn : nd.isDir := by rw [bare_dir hb]; exact hd
    have hen := (bare_eq hb).2.2.2
    obtain ⟨s2, g1, gR, gfs, gcg⟩ := getdents_dir hR hc ofd (withSlot_fds _ _ _) hnd hdn clipped_lt
    rw [withSlot_withSlot, hen] at gcg
    rw [hen] at g1
    obtain ⟨f1, f2, f3, f4⟩ := fill_some (es := nd0.ents.drop pos) (fun e he => hs e (List.mem_of_mem_drop he))
    have hdl : (nd0.ents.drop pos).length = nd0.ents.length - pos := by simp
    by_cases hend : nd0.ents.drop pos = []
    · rw [hend] at g1 gcg
      simp only [Getdents.fill] at g1 gcg
      have gc : s2.cages c = some (cg.withSlot fd (some (.file i (min (pos + ([] : List Getdents.Rec).length) nd0.ents.length) 0#32))) := by
        rw [gcg, upd_same]
      obtain ⟨s5, c1, cR, cdisk, cino, ccg⟩ := close_dir gR gc ofd (withSlot_fds _ _ _) (by rw [gfs]; exact hnd) hdn
        (by rw [(bare_eq hb).2.2.1]; exact hl)
      rw [withSlot_withSlot, gcg, upd_upd, withSlot_none ofree] at ccg
      refine ⟨s5, [], ?_, cR, by rw [cino, gfs], by rw [cdisk, gfs], ccg, by rw [hend]; exact .nil⟩
      simp only [visitLoop, g1]
      simp [c1]
    · have hpos1 := f3 hend
      generalize hF : Getdents.fill 65536 (nd0.ents.drop pos) 0 = F at *
      have hmin : min (pos + F.1.length) nd0.ents.length = pos + F.1.length := by omega
      rw [hmin] at gcg
      have gc : s2.cages c = some (cg.withSlot fd (some (.file i (pos + F.1.length) 0#32))) := by rw [gcg, upd_same]
      have hrefs2 : Refs s0 s2 := by intro x; rw [gfs]; exact hrefs x
      have hfree2 : h ≤ free (cg.withSlot fd (some (.file i (pos + F.1.length) 0#32))).fds := by
        have := free_upd (d := .file i (pos + F.1.length) 0#32) ofree ofd
        simp only [Cage.withSlot]; omega
      have hmem : ∀ n ∈ ((nd0.ents.drop pos).take F.1.length).map (·.1), ∃ j, (n, j) ∈ nd0.ents := by
        intro n hn
        obtain ⟨⟨a, b⟩, hab, rfl⟩ := List.mem_map.1 hn
        exact ⟨b, List.mem_of_mem_drop (List.mem_of_mem_take hab)⟩
      obtain ⟨s3, o, v1, v2, v3, v4⟩ := visitNames_shows (cg := cg.withSlot fd (some (.file i (pos + F.1.length) 0#32))) hf hpath hP hfree2 w0
        hnd0 hd hkind _ s2 gR hrefs2 gc hmem
      obtain ⟨s4, o', y1, y2, y3, y4, y5, y6⟩ := ih (pos + F.1.length) s3 nd (by omega) v2 (hrefs2.of_eqv v3) (by omega)
        (by rw [v3.cages]; exact gc) (by rw [v3.inodes, gfs]; exact hnd)
      refine ⟨s4, o ++ o', ?_, y2, by rw [y3, v3.inodes, gfs], by rw [y4, v3.disk, gfs], by rw [y5, v3.cages, gcg, upd_upd], ?_⟩
      · have hz : ¬ ((F.2 : Nat) : Int) = 0 := by omega
        simp only [visitLoop, g1, if_neg hz, Int.toNat_natCast, f1, v1, y1]
        rfl
      · have : (nd0.ents.drop pos) = (nd0.ents.drop pos).take F.1.length ++ nd0.ents.drop (pos + F.1.length) := by
          rw [← List.drop_drop, List.take_append_drop]
        rw [this, List.map_append]
        exact v4.append y6

/-- `visit_children` shows all entries and changes nothing. -/
theorem visit_shows {α : Type} {f : State → Str → Bool → Run α} {c : Nat} {path : Str} {P : List Name} {i h : Nat} {cg : Cage} {s0 s : State}
    {nd0 : Inode} {R : Name → List α → Prop} (hf : Shows f c path s0 nd0 h cg.cwd R) (hR : Reach s) (hrefs : Refs s0 s) (hc : s.cages c = some cg)
    (hpath : path ≠ []) (hP : cg.path path = P) (hfree : h + 1 ≤ free cg.fds) (w0 : Walk s0.fs.inodes rootIno P i)
    (hnd0 : s0.fs.inodes i = some nd0) (hd : nd0.isDir)
    (hkind : ∀ n k kd, (n, k) ∈ nd0.ents → Proper n → s0.fs.inodes k = some kd → modeIsDir kd.mode = kd.isDir)
    (hs : Getdents.Sane nd0.ents) {k : Nat} (hk : nd0.ents.length < k) :
    ∃ s' o, visit f c path k s = .done s' o ∧ Reach s' ∧ Eqv s s' ∧ Outs R (nd0.ents.map (·.1)) o := by
  have T := hR.inv.fs.tree
  obtain ⟨nd, hnd, hb⟩ := hrefs.get' hnd0
  have hdn : nd.isDir := by rw [bare_dir hb]; exact hd
  have w : Walk s.fs.inodes rootIno P i := hrefs.walk.2 w0
  have gP : ∀ m ∈ P, Proper m := by rw [← hP]; exact fun m hm => Good.proper (hR.inv.gp hc _ m hm)
  have hi : Leads s cg path i := by unfold Leads; rw [hP]; exact w
  have hlive : Live s.fs.inodes i := by
    rcases snoc_cases P with e | ⟨a, m, e⟩
    · subst e; cases w; exact .inl rfl
    · subst e
      obtain ⟨x, xd, -, hx, -, hm⟩ := w.split
      exact .inr ⟨x, xd, m, hx, hm, gP m (by simp)⟩
  have h7 := T.live_ne7 hlive
  have hl : nd0.link ≠ 2 := by
    rw [← (bare_eq hb).2.2.1]
    obtain ⟨a, p, b, -⟩ := T.dots hnd hdn h7
    have := T.dlink hnd hdn h7
    have l1 := entDel_length (T.nodup hnd) a
    have l2 : 0 < (entDel nd.ents dot).length := by
      refine List.length_pos_iff.2 ?_
      intro e
      have hm := mem_entDel (es := nd.ents) (n := dot) |>.2 ⟨entGet_mem b, by decide⟩
      rw [e] at hm; simp at hm
    omega
  obtain ⟨s1, fd, o1, ofd, ofree, ocg, oR, odisk, oino⟩ := open_dir hR hc hpath hi hnd hdn (by omega)
  have hrefs1 : Refs s0 s1 := by
    intro x
    rw [oino, upd_apply]
    split
    · rename_i e; subst e
      rw [← hrefs, hnd]; rfl
    · exact hrefs x
  obtain ⟨s2, o, y1, y2, y3, y4, y5, y6⟩ := visitLoop_shows hf hpath hP hfree w0 hnd0 hd hkind hs hl ofd ofree k 0 s1 { nd with ref := nd.ref + 1 }
    (by omega) oR hrefs1 (by omega) (by rw [ocg, upd_same]) (by rw [oino, upd_same])
  refine ⟨s2, o, ?_, y2, ⟨?_, by rw [y4, odisk], by rw [y5, ocg, upd_upd, ← hc, upd_self]⟩, y6⟩
  · simp only [visit, o1, Out.r, y1]
  · rw [y3, oino, upd_upd]
    simp only [Nat.add_sub_cancel]
    rw [show ({ kind := nd.kind, mode := nd.mode, size := nd.size, link := nd.link, ref := nd.ref, ents := nd.ents } : Inode) = nd from rfl, ← hnd, upd_self]

end Verif.FsShow
