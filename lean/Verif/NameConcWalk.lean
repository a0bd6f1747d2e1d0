import Verif.NameConcSpec
import Verif.FsOps

/-! Lemmas on the path walk of one file system: one more component, uniqueness of paths, and what a change elsewhere leaves alone. -/

namespace Verif.NameConc
open Verif.Path Verif.Fs

/-- The path leads to the inode. -/
structure Leads (g : Fs) (p : List Name) (i : Nat) : Prop where
  ex : ∃ x, g.walk p = some (some i, x)

theorem walkFrom_append (ino : Nat → Option Inode) (a b : List Name) (i par : Option Nat) :
    walkFrom ino (a ++ b) i par =
      match walkFrom ino a i par with
      | none => none
      | some (i', par') => walkFrom ino b i' par' := by
  have key : walkFrom ino b none none = some (none, none) := by cases b <;> rfl
  induction a generalizing i par with
  | nil => rfl
  | cons n ns ih =>
    cases i with
    | none => simp only [List.cons_append, walkFrom, key]
    | some i =>
      simp only [List.cons_append, walkFrom]
      cases ino i with
      | none => rfl
      | some nd =>
        dsimp only
        split
        · exact ih _ _
        · exact key.symm

theorem walk_snoc {g : Fs} {d : List Name} {n : Name} {r : Option Nat × Option Nat} (h : g.walk d = some r) :
    g.walk (d ++ [n]) = match r.1 with
      | none => some (none, none)
      | some i => match g.inodes i with
        | none => none
        | some nd => if nd.isDir then some (entGet nd.ents n, some i) else some (none, none) := by
  unfold Fs.walk at h ⊢
  split at h
  · cases h
  · rename_i x hx
    simp only [walkFrom_append, h]
    obtain ⟨i, par⟩ := r
    cases i with
    | none => rfl
    | some i =>
      simp only [walkFrom]
      rfl

theorem walk_prefix {g : Fs} {d e : List Name} {r} (h : g.walk (d ++ e) = some r) : ∃ r', g.walk d = some r' := by
  unfold Fs.walk at h ⊢
  split at h
  · cases h
  · rename_i x hx
    rw [walkFrom_append] at h
    cases hw : walkFrom g.inodes d (some rootIno) none with
    | none => rw [hw] at h; cases h
    | some r' => exact ⟨r', rfl⟩

theorem walk_root {g : Fs} {r} (h : g.walk [] = some r) : r = (some rootIno, none) := by
  unfold Fs.walk at h
  split at h
  · cases h
  · simpa [walkFrom] using h.symm

/-- A walk that has a parent: the path has a last component, the rest leads to the parent, which is a directory. -/
theorem walk_par {g : Fs} {p : List Name} {x : Option Nat} {par : Nat} (h : g.walk p = some (x, some par)) :
    ∃ d n pd, p = d ++ [n] ∧ Leads g d par ∧ g.inodes par = some pd ∧ pd.isDir ∧ x = entGet pd.ents n := by
  rcases List.eq_nil_or_concat p with rfl | ⟨d, n, e⟩
  · cases walk_root h
  · rw [List.concat_eq_append] at e
    subst e
    obtain ⟨r, hr⟩ := walk_prefix h
    have := walk_snoc (n := n) hr
    rw [h] at this
    obtain ⟨i, y⟩ := r
    cases i with
    | none => cases this
    | some i =>
      dsimp only at this
      split at this
      · cases this
      · rename_i nd hi
        split at this
        · simp only [Option.some.injEq, Prod.mk.injEq] at this
          obtain ⟨h1, rfl⟩ := this
          exact ⟨d, n, nd, rfl, ⟨⟨y, hr⟩⟩, hi, by assumption, h1⟩
        · cases this

theorem good_left {d e : List Name} (h : GoodPath (d ++ e)) : GoodPath d := fun n hn => h n (by simp [hn])
theorem good_last {d : List Name} {n : Name} (h : GoodPath (d ++ [n])) : Good n := h n (by simp)

theorem leads_some {g : Fs} (T : Tree g.inodes g.next) {p : List Name} (hp : GoodPath p) {i : Nat} (h : Leads g p i) :
    ∃ nd, g.inodes i = some nd := by
  obtain ⟨⟨x, h⟩⟩ := h
  obtain ⟨r, hr, hl⟩ := look T p hp
  rw [h] at hr; cases hr
  cases hl with
  | root => obtain ⟨nd, h1, -⟩ := T.root; exact ⟨nd, h1⟩
  | found => exact ⟨_, by assumption⟩

theorem leads_fun {g : Fs} {p : List Name} {i j : Nat} (h : Leads g p i) (h' : Leads g p j) : i = j := by
  obtain ⟨⟨x, h⟩⟩ := h
  obtain ⟨⟨y, h'⟩⟩ := h'
  rw [h] at h'; cases h'; rfl

theorem dir_entry {ino next} (T : Tree ino next) {a b i : Nat} {n m : Name} {na nb nd : Inode}
    (ha : ino a = some na) (hma : (n, i) ∈ na.ents) (hn : Proper n)
    (hb : ino b = some nb) (hmb : (m, i) ∈ nb.ents) (hm : Proper m)
    (hi : ino i = some nd) (hd : nd.isDir) : a = b ∧ n = m := by
  obtain ⟨-, -, -, x, hx, h1⟩ := T.ent ha hma hn
  rw [hi] at hx; cases hx
  obtain ⟨-, -, -, x, hx, h2⟩ := T.ent hb hmb hm
  rw [hi] at hx; cases hx
  have e := (h1 hd).1
  rw [(h2 hd).1] at e; cases e
  rw [ha] at hb; cases hb
  exact ⟨rfl, T.one ha hma hmb hn hm hi hd⟩

/-- A file with at most one link has one entry. -/
theorem file_entry {ino next} (T : Tree ino next) {a b i : Nat} {n m : Name} {na nb nd : Inode}
    (ha : ino a = some na) (hma : (n, i) ∈ na.ents) (hn : Proper n)
    (hb : ino b = some nb) (hmb : (m, i) ∈ nb.ents) (hm : Proper m)
    (hi : ino i = some nd) (hd : nd.isDir = false) (hl : nd.link ≤ 1) : a = b ∧ n = m := by
  have hc := T.flink hi hd
  have h1 : 0 < namesIn ino i a := by simp only [namesIn, ha]; exact nm_pos.2 ⟨n, hma, hn⟩
  have h2 : 0 < namesIn ino i b := by simp only [namesIn, hb]; exact nm_pos.2 ⟨m, hmb, hm⟩
  have hab : a = b := by
    apply Classical.byContradiction
    intro hne
    have := sumTo_upd (f := namesIn ino i) (g := fun d => if d = a then 0 else namesIn ino i d) (T.bound ha)
      (fun j hj => by simp [hj])
    have h3 := sumTo_le (f := fun d => if d = a then 0 else namesIn ino i d) (T.bound hb)
    simp only [if_neg (fun e => hne (Eq.symm e)), if_true] at this h3
    have : nameCount ino next i = sumTo (namesIn ino i) next := rfl
    omega
  subst hab
  rw [ha] at hb; cases hb
  refine ⟨rfl, Classical.byContradiction fun hne => ?_⟩
  have hnd := T.nodup ha
  have e := nm_entDel hnd ((entGet_iff hnd).2 hma) hn i
  rw [if_pos rfl] at e
  have : 0 < nm (entDel na.ents n) i := nm_pos.2 ⟨m, mem_entDel.2 ⟨hmb, fun e => hne e.symm⟩, hm⟩
  have h3 := sumTo_le (f := namesIn ino i) (T.bound ha)
  have h4 : namesIn ino i a = nm na.ents i := by simp only [namesIn, ha]
  have : nameCount ino next i = sumTo (namesIn ino i) next := rfl
  omega

/-- Two paths that lead to one inode: both empty, or both end with an entry. -/
theorem leads_cases {g : Fs} {p : List Name} {i : Nat} (h : Leads g p i) :
    (p = [] ∧ i = rootIno) ∨ ∃ d n par pd, p = d ++ [n] ∧ Leads g d par ∧ g.inodes par = some pd ∧ pd.isDir ∧ (n, i) ∈ pd.ents := by
  obtain ⟨⟨x, h⟩⟩ := h
  rcases List.eq_nil_or_concat p with rfl | ⟨d, n, e⟩
  · cases walk_root h; exact .inl ⟨rfl, rfl⟩
  · rw [List.concat_eq_append] at e
    subst e
    obtain ⟨r, hr⟩ := walk_prefix h
    have := walk_snoc (n := n) hr
    rw [h] at this
    obtain ⟨j, y⟩ := r
    cases j with
    | none => cases this
    | some j =>
      dsimp only at this
      split at this
      · cases this
      · rename_i nd hi
        split at this
        · simp only [Option.some.injEq, Prod.mk.injEq] at this
          obtain ⟨h1, rfl⟩ := this
          exact .inr ⟨d, n, j, nd, rfl, ⟨⟨y, hr⟩⟩, hi, by assumption, entGet_mem h1.symm⟩
        · cases this

theorem uniq_dir {g : Fs} (T : Tree g.inodes g.next) {i : Nat} {nd : Inode} {p q : List Name} (hp : GoodPath p) (hq : GoodPath q)
    (h1 : Leads g p i) (h2 : Leads g q i) (hi : g.inodes i = some nd) (hd : nd.isDir) : p = q := by
  induction hk : p.length using Nat.strongRecOn generalizing p q i nd with
  | _ k ih =>
    rcases leads_cases h1 with ⟨rfl, rfl⟩ | ⟨d, n, a, na, rfl, ha, ha1, ha2, ha3⟩
    · rcases leads_cases h2 with ⟨rfl, -⟩ | ⟨d, n, a, na, rfl, ha, ha1, ha2, ha3⟩
      · rfl
      · exact absurd rfl (T.ent ha1 ha3 (Good.proper (good_last hq))).2.1
    · rcases leads_cases h2 with ⟨rfl, rfl⟩ | ⟨e, m, b, nb, rfl, hb, hb1, hb2, hb3⟩
      · exact absurd rfl (T.ent ha1 ha3 (Good.proper (good_last hp))).2.1
      · obtain ⟨rfl, rfl⟩ := dir_entry T ha1 ha3 (Good.proper (good_last hp)) hb1 hb3 (Good.proper (good_last hq)) hi hd
        have := ih d.length (by simp at hk; omega) (good_left hp) (good_left hq) ha hb ha1 ha2 rfl
        rw [this]

/-- The path to a directory, or to a file with one link, is the only one. -/
theorem uniq_path {g : Fs} (T : Tree g.inodes g.next) {i : Nat} {nd : Inode} {p q : List Name} (hp : GoodPath p) (hq : GoodPath q)
    (h1 : Leads g p i) (h2 : Leads g q i) (hi : g.inodes i = some nd) (hd : nd.isDir ∨ nd.link ≤ 1) : p = q := by
  by_cases hdir : nd.isDir
  · exact uniq_dir T hp hq h1 h2 hi hdir
  · have hl := hd.resolve_left hdir
    have hroot : i ≠ rootIno := by
      rintro rfl
      obtain ⟨x, hx, hx'⟩ := T.root
      rw [hi] at hx; cases hx; exact hdir hx'
    rcases leads_cases h1 with ⟨-, e⟩ | ⟨d, n, a, na, rfl, ha, ha1, ha2, ha3⟩
    · exact absurd e hroot
    · rcases leads_cases h2 with ⟨-, e⟩ | ⟨e, m, b, nb, rfl, hb, hb1, hb2, hb3⟩
      · exact absurd e hroot
      · obtain ⟨rfl, rfl⟩ := file_entry T ha1 ha3 (Good.proper (good_last hp)) hb1 hb3 (Good.proper (good_last hq)) hi
          (Bool.eq_false_iff.2 hdir) hl
        rw [uniq_dir T (good_left hp) (good_left hq) ha hb ha1 ha2]

theorem leads_link {g : Fs} (T : Tree g.inodes g.next) {i : Nat} {nd : Inode} {p : List Name} (hp : GoodPath p)
    (h : Leads g p i) (hi : g.inodes i = some nd) (hd : nd.isDir = false) : 0 < nd.link := by
  rcases leads_cases h with ⟨-, rfl⟩ | ⟨d, n, a, na, rfl, ha, ha1, ha2, ha3⟩
  · obtain ⟨x, hx, hx'⟩ := T.root
    rw [hi] at hx; cases hx; rw [hd] at hx'; cases hx'
  · rw [T.flink hi hd]
    refine sumTo_pos (T.bound ha1) ?_
    simp only [namesIn, ha1]
    exact nm_pos.2 ⟨n, ha3, Good.proper (good_last hp)⟩

/-- No path of `C` is on the way to `q`. -/
def Clear (C : List (List Name)) (q : List Name) : Prop := ∀ p ∈ C, ¬ p <+: q

theorem Clear.prefix {C : List (List Name)} {d q : List Name} (h : Clear C q) (hd : d <+: q) : Clear C d :=
  fun p hp hpd => h p hp (hpd.trans hd)

/-- A change of the file system that is confined to the paths in `C`. -/
structure Stable (g g' : Fs) (C : List (List Name)) : Prop where
  node : ∀ q i nd, GoodPath q → Clear C q → Leads g q i → g.inodes i = some nd →
    ∃ nd', g'.inodes i = some nd' ∧ nd'.kind = nd.kind ∧
      (nd.isDir → nd'.mode = nd.mode ∧ ∀ n, q ++ [n] ∉ C → Good n → entGet nd'.ents n = entGet nd.ents n)

theorem kind_dir {a b : Inode} (h : a.kind = b.kind) : a.isDir = b.isDir := by simp only [Inode.isDir, h]

theorem Stable.walk {g g' : Fs} {C : List (List Name)} (T : Tree g.inodes g.next) (h : Stable g g' C) {q : List Name} (hq : GoodPath q)
    (hc : Clear C q) : g'.walk q = g.walk q := by
  obtain ⟨x, hx, hx'⟩ := T.root
  induction hk : q.length using Nat.strongRecOn generalizing q with
  | _ k ih =>
    rcases List.eq_nil_or_concat q with rfl | ⟨d, n, e⟩
    · have := h.node [] rootIno x hq hc ⟨none, by simp [Fs.walk, hx, walkFrom]⟩ hx
      obtain ⟨nd', e1, -⟩ := this
      simp [Fs.walk, hx, e1, walkFrom]
    · rw [List.concat_eq_append] at e
      subst e
      have hd := ih d.length (by simp at hk; omega) (good_left hq) (hc.prefix (List.prefix_append _ _)) rfl
      obtain ⟨r, hr, -⟩ := look T d (good_left hq)
      rw [walk_snoc hr, walk_snoc (hd.trans hr)]
      obtain ⟨i, y⟩ := r
      cases i with
      | none => rfl
      | some i =>
        obtain ⟨nd, hi⟩ := leads_some T (good_left hq) ⟨⟨y, hr⟩⟩
        obtain ⟨nd', e1, e2, e3⟩ := h.node d i nd (good_left hq) (hc.prefix (List.prefix_append _ _)) ⟨⟨y, hr⟩⟩ hi
        simp only [hi, e1, kind_dir e2]
        split
        · rename_i hdir
          rw [(e3 hdir).2 n (fun hm => hc _ hm (List.prefix_refl _)) (good_last hq)]
        · rfl

end Verif.NameConc
