import Verif.Fs
import Verif.PathProps

/-!
# Lemmas about directories, sums, and the path walk
-/

namespace Verif.Fs
open Verif.Path

/-! ## Sums -/

/-- `f 0 + ... + f (n-1)` -/
def sumTo (f : Nat → Nat) : Nat → Nat
  | 0 => 0
  | n + 1 => sumTo f n + f n

theorem sumTo_congr {f g : Nat → Nat} {n : Nat} (h : ∀ k, k < n → f k = g k) :
    sumTo f n = sumTo g n := by
  induction n with
  | zero => rfl
  | succ n ih => simp only [sumTo, ih (fun k hk => h k (by omega)), h n (by omega)]

theorem sumTo_upd {f g : Nat → Nat} {n k : Nat} (hk : k < n) (h : ∀ j, j ≠ k → f j = g j) :
    sumTo f n + g k = sumTo g n + f k := by
  induction n with
  | zero => omega
  | succ n ih =>
    by_cases e : k = n
    · subst e
      have := sumTo_congr (f := f) (g := g) (n := k) (fun j hj => h j (by omega))
      simp only [sumTo]; omega
    · have := ih (by omega)
      have := h n (fun x => e x.symm)
      simp only [sumTo]; omega

theorem sumTo_zero {f : Nat → Nat} {n : Nat} (h : ∀ k, k < n → f k = 0) : sumTo f n = 0 := by
  induction n with
  | zero => rfl
  | succ n ih => simp only [sumTo, ih (fun k hk => h k (by omega)), h n (by omega)]

theorem sumTo_pos {f : Nat → Nat} {n k : Nat} (hk : k < n) (h : 0 < f k) : 0 < sumTo f n := by
  induction n with
  | zero => omega
  | succ n ih =>
    by_cases e : k = n
    · subst e; simp only [sumTo]; omega
    · have := ih (by omega); simp only [sumTo]; omega

theorem sumTo_pos_iff {f : Nat → Nat} {n : Nat} : 0 < sumTo f n ↔ ∃ k, k < n ∧ 0 < f k := by
  constructor
  · intro h
    apply Classical.byContradiction
    intro hn
    have := sumTo_zero (f := f) (n := n) (fun k hk => by
      apply Classical.byContradiction; intro h0; exact hn ⟨k, hk, by omega⟩)
    omega
  · rintro ⟨k, hk, h⟩; exact sumTo_pos hk h

theorem sumTo_le {f : Nat → Nat} {n k : Nat} (hk : k < n) : f k ≤ sumTo f n := by
  induction n with
  | zero => omega
  | succ n ih =>
    by_cases e : k = n
    · subst e; simp only [sumTo]; omega
    · have := ih (by omega); simp only [sumTo]; omega

/-! ## Directory dictionaries -/

/-- Neither `.` nor `..`. -/
def Proper (n : Name) : Prop := n ≠ dot ∧ n ≠ dotdot
instance (n : Name) : Decidable (Proper n) := by unfold Proper; infer_instance

theorem Good.proper {n : Name} (h : Good n) : Proper n := ⟨h.2.2.1, h.2.2.2⟩

/-- Number of proper entries of a directory that designate `i`. -/
def nm (es : List (Name × Nat)) (i : Nat) : Nat := es.countP (fun e => decide (e.2 = i ∧ Proper e.1))

theorem entGet_none {es : List (Name × Nat)} {n : Name} :
    entGet es n = none ↔ ∀ j, (n, j) ∉ es := by
  induction es with
  | nil => simp [entGet]
  | cons e es ih =>
    obtain ⟨m, i⟩ := e
    simp only [entGet]
    split
    · rename_i h; subst h
      simp only [reduceCtorEq, false_iff]
      intro hc; exact hc i (by simp)
    · rename_i h
      rw [ih]
      simp only [List.mem_cons, Prod.mk.injEq, not_or, not_and]
      exact ⟨fun hh j => ⟨fun e => absurd e.symm h, hh j⟩, fun hh j => (hh j).2⟩

theorem entGet_mem {es : List (Name × Nat)} {n : Name} {i : Nat} (h : entGet es n = some i) :
    (n, i) ∈ es := by
  induction es with
  | nil => simp [entGet] at h
  | cons e es ih =>
    obtain ⟨m, j⟩ := e
    simp only [entGet] at h
    split at h
    · rename_i hh; subst hh; simp at h; subst h; simp
    · exact List.mem_cons_of_mem _ (ih h)

theorem entGet_iff {es : List (Name × Nat)} (hnd : (es.map Prod.fst).Nodup) {n : Name} {i : Nat} :
    entGet es n = some i ↔ (n, i) ∈ es := by
  refine ⟨entGet_mem, ?_⟩
  induction es with
  | nil => simp
  | cons e es ih =>
    obtain ⟨m, j⟩ := e
    simp only [List.map_cons, List.nodup_cons, List.mem_map, Prod.exists, exists_and_right,
      exists_eq_right, not_exists] at hnd
    intro h
    simp only [List.mem_cons, Prod.mk.injEq] at h
    simp only [entGet]
    rcases h with ⟨rfl, rfl⟩ | h
    · simp
    · rw [if_neg]
      · exact ih hnd.2 h
      · rintro rfl; exact hnd.1 _ h

theorem mem_entDel {es : List (Name × Nat)} {n m : Name} {j : Nat} :
    (m, j) ∈ entDel es n ↔ (m, j) ∈ es ∧ m ≠ n := by
  induction es with
  | nil => simp [entDel]
  | cons e es ih =>
    obtain ⟨k, i⟩ := e
    simp only [entDel]
    split
    · rename_i h; subst h
      rw [ih]; simp only [List.mem_cons, Prod.mk.injEq]
      constructor
      · rintro ⟨a, b⟩; exact ⟨Or.inr a, b⟩
      · rintro ⟨(⟨rfl, -⟩ | a), b⟩
        · exact absurd rfl b
        · exact ⟨a, b⟩
    · rename_i h
      simp only [List.mem_cons, Prod.mk.injEq, ih]
      constructor
      · rintro (⟨rfl, rfl⟩ | ⟨a, b⟩)
        · exact ⟨Or.inl ⟨rfl, rfl⟩, h⟩
        · exact ⟨Or.inr a, b⟩
      · rintro ⟨(⟨rfl, rfl⟩ | a), b⟩
        · exact Or.inl ⟨rfl, rfl⟩
        · exact Or.inr ⟨a, b⟩

theorem entDel_sublist (es : List (Name × Nat)) (n : Name) : (entDel es n).Sublist es := by
  induction es with
  | nil => simp [entDel]
  | cons e es ih =>
    obtain ⟨k, i⟩ := e
    simp only [entDel]
    split
    · exact ih.cons _
    · exact ih.cons_cons _

theorem entDel_nodup {es : List (Name × Nat)} (h : (es.map Prod.fst).Nodup) (n : Name) :
    ((entDel es n).map Prod.fst).Nodup :=
  List.Nodup.sublist ((entDel_sublist es n).map _) h

theorem entDel_self {es : List (Name × Nat)} {n : Name} (h : entGet es n = none) :
    entDel es n = es := by
  induction es with
  | nil => rfl
  | cons e es ih =>
    obtain ⟨k, i⟩ := e
    simp only [entGet] at h
    split at h
    · simp at h
    · rename_i hk; simp only [entDel, if_neg hk, ih h]

theorem entPut_nodup {es : List (Name × Nat)} (h : (es.map Prod.fst).Nodup) (n : Name) (i : Nat) :
    ((entPut es n i).map Prod.fst).Nodup := by
  simp only [entPut, List.map_cons, List.nodup_cons]
  refine ⟨?_, entDel_nodup h n⟩
  simp only [List.mem_map, Prod.exists, exists_and_right, exists_eq_right, not_exists]
  intro j hj
  exact (mem_entDel.1 hj).2 rfl

theorem mem_entPut {es : List (Name × Nat)} {n m : Name} {i j : Nat} :
    (m, j) ∈ entPut es n i ↔ (m = n ∧ j = i) ∨ ((m, j) ∈ es ∧ m ≠ n) := by
  simp only [entPut, List.mem_cons, Prod.mk.injEq, mem_entDel]

theorem entDel_count {es : List (Name × Nat)} (hnd : (es.map Prod.fst).Nodup) {n : Name} {i : Nat}
    (h : entGet es n = some i) (q : Name × Nat → Bool) :
    (entDel es n).countP q + (if q (n, i) then 1 else 0) = es.countP q := by
  induction es with
  | nil => simp [entGet] at h
  | cons e es ih =>
    obtain ⟨k, j⟩ := e
    simp only [List.map_cons, List.nodup_cons, List.mem_map, Prod.exists, exists_and_right,
      exists_eq_right, not_exists] at hnd
    simp only [entGet] at h
    split at h
    · rename_i hk; subst hk
      simp only [Option.some.injEq] at h; subst h
      simp only [entDel, if_true]
      rw [entDel_self (entGet_none.2 hnd.1), List.countP_cons]
    · rename_i hk
      simp only [entDel, if_neg hk, List.countP_cons]
      have := ih hnd.2 h
      omega

theorem entDel_length {es : List (Name × Nat)} (hnd : (es.map Prod.fst).Nodup) {n : Name} {i : Nat}
    (h : entGet es n = some i) : (entDel es n).length + 1 = es.length := by
  have := entDel_count hnd h (fun _ => true)
  simpa using this

theorem nm_entDel {es : List (Name × Nat)} (hnd : (es.map Prod.fst).Nodup) {n : Name} {i : Nat}
    (h : entGet es n = some i) (hp : Proper n) (j : Nat) :
    nm (entDel es n) j + (if i = j then 1 else 0) = nm es j := by
  have := entDel_count hnd h (fun e => decide (e.2 = j ∧ Proper e.1))
  simp only [hp, and_true, decide_eq_true_eq] at this
  exact this

theorem nm_entPut {es : List (Name × Nat)} {n : Name} {i : Nat}
    (h : entGet es n = none) (hp : Proper n) (j : Nat) :
    nm (entPut es n i) j = nm es j + (if i = j then 1 else 0) := by
  simp only [entPut, entDel_self h, nm, List.countP_cons, hp, and_true, decide_eq_true_eq]

theorem entGet_entDel_ne {es : List (Name × Nat)} {n m : Name} (h : m ≠ n) :
    entGet (entDel es n) m = entGet es m := by
  induction es with
  | nil => rfl
  | cons e es ih =>
    obtain ⟨k, i⟩ := e
    simp only [entDel, entGet]
    split
    · rename_i hk; subst hk; rw [ih, if_neg (fun e => h e.symm)]
    · simp only [entGet, ih]

theorem entGet_entDel_same {es : List (Name × Nat)} {n : Name} : entGet (entDel es n) n = none :=
  entGet_none.2 (fun _ hj => (mem_entDel.1 hj).2 rfl)

theorem entGet_entPut {es : List (Name × Nat)} {n m : Name} {i : Nat} :
    entGet (entPut es n i) m = if n = m then some i else entGet es m := by
  simp only [entPut, entGet]
  split
  · rfl
  · rename_i h; exact entGet_entDel_ne (fun e => h e.symm)

theorem nm_pos {es : List (Name × Nat)} {i : Nat} :
    0 < nm es i ↔ ∃ n, (n, i) ∈ es ∧ Proper n := by
  simp only [nm, List.countP_pos_iff, decide_eq_true_eq, Prod.exists]
  constructor
  · rintro ⟨a, b, h1, rfl, h2⟩; exact ⟨a, h1, h2⟩
  · rintro ⟨a, h1, h2⟩; exact ⟨a, i, h1, rfl, h2⟩

/-! ## The number of names -/

/-- Names of `i` in directory `d`. -/
def namesIn (ino : Nat → Option Inode) (i d : Nat) : Nat :=
  match ino d with
  | none => 0
  | some nd => nm nd.ents i

/-- The number of directory entries, over all directories, that designate `i`
(`.` and `..` do not count). -/
def nameCount (ino : Nat → Option Inode) (next i : Nat) : Nat := sumTo (namesIn ino i) next

/-! ## Shape of a well-formed file system -/

/-- The directory structure: what every reachable inode table satisfies.  Inode 7 is the
directory that `format_fs` stores without entering it anywhere. -/
structure Tree (ino : Nat → Option Inode) (next : Nat) : Prop where
  root : ∃ nd, ino rootIno = some nd ∧ nd.isDir
  seven : 7 < next
  bound : ∀ {i nd}, ino i = some nd → i < next
  nodup : ∀ {d nd}, ino d = some nd → (nd.ents.map Prod.fst).Nodup
  leaf : ∀ {d nd}, ino d = some nd → nd.isDir = false → nd.ents = []
  ent : ∀ {d nd n j}, ino d = some nd → (n, j) ∈ nd.ents → Proper n →
    Good n ∧ j ≠ rootIno ∧ j ≠ 7 ∧
      ∃ jd, ino j = some jd ∧ (jd.isDir → entGet jd.ents dotdot = some d ∧ d < j)
  one : ∀ {d nd n m j jd}, ino d = some nd → (n, j) ∈ nd.ents → (m, j) ∈ nd.ents → Proper n →
    Proper m → ino j = some jd → jd.isDir → n = m
  dots : ∀ {d nd}, ino d = some nd → nd.isDir → d ≠ 7 →
    entGet nd.ents dot = some d ∧ ∃ p, entGet nd.ents dotdot = some p ∧ (d = rootIno → p = rootIno)
  dlink : ∀ {d nd}, ino d = some nd → nd.isDir → d ≠ 7 → nd.link = nd.ents.length + 1
  flink : ∀ {i nd}, ino i = some nd → nd.isDir = false → nd.link = nameCount ino next i
  live : ∀ {d nd n j}, ino d = some nd → (n, j) ∈ nd.ents → Proper n → d ≠ rootIno →
    ∃ p pd m, ino p = some pd ∧ (m, d) ∈ pd.ents ∧ Proper m

/-- A directory that is the root or has a name. -/
def Live (ino : Nat → Option Inode) (d : Nat) : Prop :=
  d = rootIno ∨ ∃ p pd m, ino p = some pd ∧ (m, d) ∈ pd.ents ∧ Proper m

theorem Tree.live_ne7 {ino next d} (h : Tree ino next) (hl : Live ino d) : d ≠ 7 := by
  rcases hl with rfl | ⟨p, pd, m, h1, h2, h3⟩
  · decide
  · exact (h.ent h1 h2 h3).2.2.1

/-! ## The path walk against a relation -/

/-- Following names through directory entries. -/
inductive Walk (ino : Nat → Option Inode) : Nat → List Name → Nat → Prop
  | here (d : Nat) : Walk ino d [] d
  | down {d j k : Nat} {n : Name} {ns : List Name} {nd : Inode} :
      ino d = some nd → nd.isDir → (n, j) ∈ nd.ents → Walk ino j ns k → Walk ino d (n :: ns) k

theorem Walk.snoc {ino d e k} {ns : List Name} {n : Name} {nd : Inode} (h : Walk ino d ns e)
    (h1 : ino e = some nd) (h2 : nd.isDir) (h3 : (n, k) ∈ nd.ents) : Walk ino d (ns ++ [n]) k := by
  induction h with
  | here d => exact .down h1 h2 h3 (.here _)
  | down a b c _ ih => exact .down a b c (ih h1)

theorem Walk.append {ino d e k} {ns ms : List Name} (h : Walk ino d ns e)
    (h' : Walk ino e ms k) : Walk ino d (ns ++ ms) k := by
  induction h with
  | here d => exact h'
  | down a b c _ ih => exact .down a b c (ih h')

/-- What the walk says about a nonempty path. -/
structure WalkRes (ino : Nat → Option Inode) (d : Nat) (p : List Name) (r : Option Nat × Option Nat) :
    Prop where
  found : ∀ {i}, r.1 = some i → Walk ino d p i ∧ (∃ nd, ino i = some nd) ∧ r.2 ≠ none
  parent : ∀ {par}, r.2 = some par → ∃ ps n pd, p = ps ++ [n] ∧ Walk ino d ps par ∧
    ino par = some pd ∧ pd.isDir ∧ Live ino par ∧ r.1 = entGet pd.ents n
  orphan : r.2 = none → ∀ ps n par pd, p = ps ++ [n] → Walk ino d ps par → ino par = some pd →
    pd.isDir = false

theorem walk_fun {ino next} (h : Tree ino next) {d : Nat} {p : List Name} {i j : Nat}
    (h1 : Walk ino d p i) (h2 : Walk ino d p j) : i = j := by
  induction h1 with
  | here d => cases h2; rfl
  | down a b c _ ih =>
    cases h2 with
    | down a' b' c' w' =>
      rw [a] at a'; cases a'
      have := (entGet_iff (h.nodup a)).2 c
      rw [(entGet_iff (h.nodup a)).2 c'] at this
      cases this
      exact ih w'

theorem walkFrom_spec {ino next} (h : Tree ino next) (p : List Name) (hp : ∀ n ∈ p, Proper n)
    (hne : p ≠ []) (d : Nat) (nd : Inode) (hd : ino d = some nd) (hl : Live ino d) (par : Option Nat) :
    ∃ r, walkFrom ino p (some d) par = some r ∧ WalkRes ino d p r := by
  induction p generalizing d nd par with
  | nil => exact absurd rfl hne
  | cons n ns ih =>
    simp only [walkFrom, hd]
    have hpn : Proper n := hp n (by simp)
    by_cases hdir : nd.isDir = true
    · rw [if_pos hdir]
      cases ns with
      | nil =>
        refine ⟨_, rfl, ?_, ?_, ?_⟩
        · intro i hi
          have hm := entGet_mem hi
          obtain ⟨-, -, -, jd, hj, -⟩ := h.ent hd hm hpn
          exact ⟨.down hd hdir hm (.here _), ⟨jd, hj⟩, by simp⟩
        · intro par hpar
          simp only [Option.some.injEq] at hpar; subst hpar
          exact ⟨[], n, nd, rfl, .here _, hd, hdir, hl, rfl⟩
        · simp
      | cons m ms =>
        cases hg : entGet nd.ents n with
        | none =>
          refine ⟨_, rfl, by simp, by simp, ?_⟩
          rintro - ps k par pd heq hw hpd
          cases ps with
          | nil => simp at heq
          | cons a as =>
            simp only [List.cons_append, List.cons.injEq] at heq
            cases hw with
            | down x y z w =>
              rw [hd] at x; cases x
              rw [← heq.1] at z
              exact absurd z (entGet_none.1 hg _)
        | some j =>
          have hm := entGet_mem hg
          obtain ⟨-, -, -, jd, hj, -⟩ := h.ent hd hm hpn
          obtain ⟨r, hr, hf, hpa, ho⟩ := ih (fun x hx => hp x (by simp [hx])) (by simp) j jd hj
            (.inr ⟨d, nd, n, hd, hm, hpn⟩) (some d)
          refine ⟨r, hr, ?_, ?_, ?_⟩
          · intro i hi
            obtain ⟨w, e, q⟩ := hf hi
            exact ⟨.down hd hdir hm w, e, q⟩
          · intro par hpar
            obtain ⟨ps, k, pd, e1, w, e2⟩ := hpa hpar
            exact ⟨n :: ps, k, pd, by simp [e1], .down hd hdir hm w, e2⟩
          · intro hnone ps k par pd heq hw hpd
            cases ps with
            | nil => simp at heq
            | cons a as =>
              simp only [List.cons_append, List.cons.injEq] at heq
              cases hw with
              | down x y z w =>
                rw [hd] at x; cases x
                rw [← heq.1] at z
                have := (entGet_iff (h.nodup hd)).2 z
                rw [hg] at this; cases this
                exact ho hnone as k par pd heq.2 w hpd
    · rw [if_neg hdir]
      refine ⟨_, rfl, by simp, by simp, ?_⟩
      rintro - ps k par pd heq hw hpd
      cases hw with
      | here => rw [hd] at hpd; cases hpd; simpa using hdir
      | down x y z w => rw [hd] at x; cases x; exact absurd y hdir

theorem walk_spec {fs : Fs} (h : Tree fs.inodes fs.next) (p : List Name) (hp : ∀ n ∈ p, Proper n)
    (hne : p ≠ []) : ∃ r, fs.walk p = some r ∧ WalkRes fs.inodes rootIno p r := by
  obtain ⟨nd, h1, -⟩ := h.root
  simp only [Fs.walk, h1]
  exact walkFrom_spec h p hp hne rootIno nd h1 (.inl rfl) none

theorem walk_nil {fs : Fs} (h : Tree fs.inodes fs.next) : fs.walk [] = some (some rootIno, none) := by
  obtain ⟨nd, h1, -⟩ := h.root
  simp only [Fs.walk, h1, walkFrom]

theorem Walk.exists {ino next} (h : Tree ino next) {d i : Nat} {p : List Name} (hw : Walk ino d p i)
    (hp : ∀ n ∈ p, Proper n) (hd : ∃ nd, ino d = some nd) : ∃ nd, ino i = some nd := by
  induction hw with
  | here => exact hd
  | down a b c _ ih =>
    obtain ⟨-, -, -, jd, hj, -⟩ := h.ent a c (hp _ (by simp))
    exact ih (fun n hn => hp n (by simp [hn])) ⟨jd, hj⟩

theorem Walk.split {ino d k} {ns : List Name} {n : Name} (h : Walk ino d (ns ++ [n]) k) :
    ∃ e nd, Walk ino d ns e ∧ ino e = some nd ∧ nd.isDir ∧ (n, k) ∈ nd.ents := by
  induction ns generalizing d with
  | nil =>
    cases h with
    | down a b c w => cases w; exact ⟨_, _, .here _, a, b, c⟩
  | cons m ms ih =>
    cases h with
    | down a b c w =>
      obtain ⟨e, nd, w', r⟩ := ih w
      exact ⟨e, nd, .down a b c w', r⟩

end Verif.Fs
