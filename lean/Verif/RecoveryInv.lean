import Verif.Recovery
import Verif.KernelStep

/-! # A start from what is on disk gives a well-formed system -/

namespace Verif.Recovery
open Verif.Path Verif.Fs Verif.Kernel

/-! ## Replay -/

theorem replay_append (m : Nat → Option Inode) (l1 l2 : Log) : replay m (l1 ++ l2) = replay (replay m l1) l2 := by
  simp [replay, List.foldl_append]

theorem replay_snoc (m : Nat → Option Inode) (l : Log) (i : Nat) (o : Option Inode) :
    replay m (l ++ [(i, o)]) = upd (replay m l) i (o.map clean) := by
  rw [replay_append]; rfl

theorem maxNum_append (n : Nat) (l1 l2 : Log) : maxNum n (l1 ++ l2) = maxNum (maxNum n l1) l2 := by
  simp [maxNum, List.foldl_append]

theorem maxNum_le (n : Nat) (l : Log) : n ≤ maxNum n l := by
  induction l generalizing n with
  | nil => exact Nat.le_refl _
  | cons e l ih =>
    have := ih (match e.2 with | some _ => max n e.1 | none => n)
    simp only [maxNum, List.foldl_cons] at this ⊢
    refine Nat.le_trans ?_ this
    split <;> omega

theorem replay_untouched {l : Log} {i : Nat} (h : ∀ e, e ∈ l → e.1 ≠ i) (m : Nat → Option Inode) : replay m l i = m i := by
  induction l generalizing m with
  | nil => rfl
  | cons e l ih =>
    have := ih (fun x hx => h x (by simp [hx])) (upd m e.1 (e.2.map clean))
    simp only [replay, List.foldl_cons] at this ⊢
    rw [this, upd_ne _ _ (fun e' => h e (by simp) e'.symm)]

theorem replay_touched {l : Log} {i : Nat} (h : ∃ e, e ∈ l ∧ e.1 = i) (m m' : Nat → Option Inode) : replay m l i = replay m' l i := by
  induction l generalizing m m' with
  | nil => obtain ⟨e, he, -⟩ := h; cases he
  | cons e l ih =>
    simp only [replay, List.foldl_cons]
    by_cases ht : ∃ x, x ∈ l ∧ x.1 = i
    · exact ih ht _ _
    · have hu : ∀ x, x ∈ l → x.1 ≠ i := fun x hx hi => ht ⟨x, hx, hi⟩
      have h1 := replay_untouched hu (upd m e.1 (e.2.map clean))
      have h2 := replay_untouched hu (upd m' e.1 (e.2.map clean))
      simp only [replay] at h1 h2
      rw [h1, h2]
      obtain ⟨x, hx, hxi⟩ := h
      simp only [List.mem_cons] at hx
      rcases hx with rfl | hx
      · rw [hxi, upd_same, upd_same]
      · exact absurd hxi (hu x hx)

theorem replay_clean {l : Log} {m : Nat → Option Inode} (hm : ∀ i nd, m i = some nd → nd.ref = 0) :
    ∀ i nd, replay m l i = some nd → nd.ref = 0 := by
  induction l generalizing m with
  | nil => exact hm
  | cons e l ih =>
    simp only [replay, List.foldl_cons]
    apply ih
    intro i nd h
    simp only [upd_apply] at h
    split at h
    · cases ho : e.2 with
      | none => rw [ho] at h; cases h
      | some x => rw [ho] at h; simp only [Option.map_some, Option.some.injEq] at h; subst h; rfl
    · exact hm i nd h

/-! ## Dropping objects without names -/

theorem sumTo_grow {f : Nat → Nat} {n m : Nat} (h : n ≤ m) (hz : ∀ k, n ≤ k → k < m → f k = 0) : sumTo f m = sumTo f n := by
  induction m with
  | zero => have : n = 0 := by omega
            subst this; rfl
  | succ m ih =>
    by_cases e : n = m + 1
    · subst e; rfl
    · simp only [sumTo]
      rw [ih (by omega) (fun k h1 h2 => hz k h1 (by omega)), hz m (by omega) (by omega)]; rfl

theorem nameCount_grow {ino : Nat → Option Inode} {next next' : Nat} (hb : ∀ {i nd}, ino i = some nd → i < next) (h : next ≤ next')
    (i : Nat) : nameCount ino next' i = nameCount ino next i := by
  refine sumTo_grow h ?_
  intro k h1 _
  simp only [namesIn]
  cases hk : ino k with
  | none => rfl
  | some nd => have := hb hk; omega

theorem Tree.grow {ino : Nat → Option Inode} {next next' : Nat} (h : Tree ino next) (hle : next ≤ next') : Tree ino next' := by
  refine ⟨h.root, Nat.lt_of_lt_of_le h.seven hle, fun hi => Nat.lt_of_lt_of_le (h.bound hi) hle, h.nodup, h.leaf, h.ent, h.one, h.dots,
    h.dlink, ?_, h.live⟩
  intro i nd hi hd
  rw [nameCount_grow h.bound hle]; exact h.flink hi hd

/-- Neither the root nor named nor with entries of its own. -/
def Loose (ino : Nat → Option Inode) (next i : Nat) : Prop :=
  i ≠ rootIno ∧ nameCount ino next i = 0 ∧ ∀ nd n j, ino i = some nd → (n, j) ∈ nd.ents → ¬ Proper n

theorem loose_leaf {ino : Nat → Option Inode} {next i : Nat} {nd : Inode} (h : Tree ino next) (hi : ino i = some nd) (hd : nd.isDir = false)
    (hl : nd.link = 0) : Loose ino next i := by
  refine ⟨?_, by rw [← h.flink hi hd]; exact hl, ?_⟩
  · rintro rfl
    obtain ⟨x, h1, h2⟩ := h.root
    rw [hi] at h1; cases h1; rw [hd] at h2; cases h2
  · intro x n j hx hm
    rw [hi] at hx; cases hx
    rw [h.leaf hi hd] at hm; cases hm

theorem loose_seven {ino : Nat → Option Inode} {next : Nat} (h : Tree ino next) : Loose ino next 7 := by
  have hz : ∀ d nd n, ino d = some nd → (n, 7) ∈ nd.ents → ¬ Proper n :=
    fun d nd n hd hm hp => (h.ent hd hm hp).2.2.1 rfl
  refine ⟨by decide, ?_, ?_⟩
  · apply sumTo_zero
    intro d _
    simp only [namesIn]
    cases hd : ino d with
    | none => rfl
    | some nd =>
      apply Classical.byContradiction
      intro hne
      obtain ⟨n, h1, h2⟩ := nm_pos.1 (Nat.pos_of_ne_zero hne)
      exact hz d nd n hd h1 h2
  · intro nd n j hi hm hp
    obtain ⟨p, pd, m, e1, e2, e3⟩ := h.live hi hm hp (by decide)
    exact hz p pd m e1 e2 e3

/-- Dropping such objects. -/
theorem prune {ino ino' : Nat → Option Inode} {next : Nat} (h : Tree ino next)
    (hp : ∀ i, ino' i = ino i ∨ (ino' i = none ∧ Loose ino next i)) : Tree ino' next := by
  have hget : ∀ {k x}, ino' k = some x → ino k = some x := by
    intro k x hk
    rcases hp k with e | ⟨e, -⟩
    · rw [← e]; exact hk
    · rw [e] at hk; cases hk
  have hcount : ∀ i, nameCount ino' next i = nameCount ino next i := by
    intro i
    apply sumTo_congr
    intro d _
    simp only [namesIn]
    rcases hp d with e | ⟨e, -, -, e'⟩
    · rw [e]
    · rw [e]; dsimp only
      cases hd : ino d with
      | none => rfl
      | some x =>
        dsimp only
        apply Classical.byContradiction
        intro hne
        obtain ⟨n, h1, h2⟩ := nm_pos.1 (Nat.pos_of_ne_zero (fun e => hne e.symm))
        exact e' x n i hd h1 h2
  constructor
  · obtain ⟨nd, g1, g2⟩ := h.root
    rcases hp rootIno with e | ⟨-, e, -⟩
    · exact ⟨nd, by rw [e]; exact g1, g2⟩
    · exact absurd rfl e
  · exact h.seven
  · intro k x hk; exact h.bound (hget hk)
  · intro k x hk; exact h.nodup (hget hk)
  · intro k x hk; exact h.leaf (hget hk)
  · intro d x n j hk hm hpn
    obtain ⟨e1, e2, e3, jd, e4, e5⟩ := h.ent (hget hk) hm hpn
    refine ⟨e1, e2, e3, jd, ?_, e5⟩
    rcases hp j with e | ⟨-, -, e', -⟩
    · rw [e]; exact e4
    · exact absurd hpn (nameCount_zero h e' (hget hk) hm)
  · intro d x n m j jd hk hn' hm' hpn hpm hj hjd
    exact h.one (hget hk) hn' hm' hpn hpm (hget hj) hjd
  · intro d x hk; exact h.dots (hget hk)
  · intro d x hk; exact h.dlink (hget hk)
  · intro k x hk; rw [hcount]; exact h.flink (hget hk)
  · intro d x n j hk hm hpn hroot
    obtain ⟨p, pd0, m, e1, e2, e3⟩ := h.live (hget hk) hm hpn hroot
    refine ⟨p, pd0, m, ?_, e2, e3⟩
    rcases hp p with e | ⟨-, -, -, e'⟩
    · rw [e]; exact e1
    · exact absurd e3 (e' pd0 m d e1 e2)

/-! ## The disk and the memory agree -/

/-- Replaying the log on the snapshot gives what is in memory, up to the counts of open descriptors; the next number to be given out
will be larger than every number in use; there are no sockets. -/
structure Synced (b : Snap) (fs : Fs) : Prop where
  plain : ∀ i nd, b.inodes i = some nd → nd.ref = 0
  nosock : ∀ i nd, fs.inodes i = some nd → nd.isSock = false
  same : ∀ i, replay b.inodes fs.log i = (fs.inodes i).map clean
  next : fs.next ≤ maxNum b.next fs.log + 1

theorem sameShape_clean (ino : Nat → Option Inode) : SameShape ino (fun i => (ino i).map clean) := by
  intro i; cases h : ino i <;> simp [h, shape, clean]

theorem dir_link {ino : Nat → Option Inode} {next d : Nat} {nd : Inode} (h : Tree ino next) (hd : ino d = some nd) (hk : nd.isDir)
    (h7 : d ≠ 7) : 2 < nd.link := by
  have h1 := h.dlink hd hk h7
  obtain ⟨h2, p, h3, -⟩ := h.dots hd hk h7
  have m2 := entGet_mem h2
  have m3 := entGet_mem h3
  match he : nd.ents with
  | [] => rw [he] at m2; cases m2
  | [_] =>
    rw [he] at m2 m3; simp only [List.mem_singleton] at m2 m3
    rw [← m2] at m3
    have : dotdot = dot := congrArg Prod.fst m3
    exact absurd this (by decide)
  | _ :: _ :: _ => rw [he] at h1; simp at h1; omega

/-- What recovery drops. -/
theorem fsck_drops {ino : Nat → Option Inode} {next : Nat} (h : Tree ino next) (hs : ∀ i nd, ino i = some nd → nd.isSock = false)
    (i : Nat) : fsck ino i = ino i ∨ (fsck ino i = none ∧ Loose ino next i) := by
  simp only [fsck]
  cases hi : ino i with
  | none => left; rfl
  | some nd =>
    dsimp only
    by_cases hk : keeps nd = true
    · left; rw [if_pos hk]
    · right
      rw [if_neg hk]
      refine ⟨rfl, ?_⟩
      simp only [keeps] at hk
      cases hkind : nd.kind with
      | file => rw [hkind] at hk; exact loose_leaf h hi (by simp [Inode.isDir, hkind]) (by simpa using hk)
      | chr dv => rw [hkind] at hk; exact loose_leaf h hi (by simp [Inode.isDir, hkind]) (by simpa using hk)
      | sock => have := hs i nd hi; simp [Inode.isSock, hkind] at this
      | dir =>
        by_cases h7 : i = 7
        · subst h7; exact loose_seven h
        · have := dir_link h hi (by simp [Inode.isDir, hkind]) h7
          rw [hkind] at hk; simp at hk; omega

theorem clean_shape (ino : Nat → Option Inode) : SameShape ino (fun i => (ino i).map clean) := by
  intro i; cases h : ino i <;> simp [h, shape, clean]

theorem local_clean {x : Inode} {fo : Option Nat} {dk : Option (List UInt8)} {c : Nat} (h : LocalAt (some x) fo dk c)
    (hl : match x.kind with | .file => 0 < x.link | .chr _ => 0 < x.link | _ => True) :
    LocalAt (some (clean x)) none (if (clean x).isFile then dk else none) 0 := by
  obtain ⟨kind, mode, size, link, ref, ents⟩ := x
  cases kind <;> simp_all [LocalAt, clean, Inode.isFile]

/-- A start after a crash is well-formed if disk and memory agreed. -/
theorem recover_inv {b : Snap} {fs : Fs} {cnt : Nat → Nat} (h : FsInv fs cnt) (hs : Synced b fs) :
    FsInv (start (recover b fs.log) fs.disk) (fun _ => 0) := by
  have hrep : replay b.inodes fs.log = fun i => (fs.inodes i).map clean := funext hs.same
  have hT : Tree (replay b.inodes fs.log) fs.next := by rw [hrep]; exact h.tree.congr (clean_shape _)
  have hns : ∀ i nd, replay b.inodes fs.log i = some nd → nd.isSock = false := by
    intro i nd hi
    rw [hrep] at hi
    cases hx : fs.inodes i with
    | none => simp [hx] at hi
    | some x =>
      simp only [hx, Option.map_some, Option.some.injEq] at hi; subst hi
      exact hs.nosock i x hx
  have hT' : Tree (fsck (replay b.inodes fs.log)) fs.next := prune hT (fsck_drops hT hns)
  refine ⟨Tree.grow hT' hs.next, ?_, rfl⟩
  intro i
  simp only [start, recover]
  cases hi : fsck (replay b.inodes fs.log) i with
  | none => exact ⟨rfl, rfl, rfl⟩
  | some nd =>
    have hx : replay b.inodes fs.log i = some nd ∧ keeps nd = true := by
      simp only [fsck] at hi
      cases hr : replay b.inodes fs.log i with
      | none => rw [hr] at hi; cases hi
      | some y =>
        rw [hr] at hi
        by_cases hk : keeps y = true
        · simp only [hk, if_true, Option.some.injEq] at hi; subst hi; exact ⟨rfl, hk⟩
        · simp [hk] at hi
    obtain ⟨hr, hk⟩ := hx
    rw [hrep] at hr
    cases hf : fs.inodes i with
    | none => simp [hf] at hr
    | some x =>
      simp only [hf, Option.map_some, Option.some.injEq] at hr; subst hr
      have hl := h.loc i
      rw [hf] at hl
      refine local_clean hl ?_
      simp only [keeps, clean] at hk
      cases hkind : x.kind <;> rw [hkind] at hk <;> simp at hk ⊢ <;> omega

/-- A start after a clean shutdown is well-formed. -/
theorem clean_inv {fs : Fs} (h : FsInv fs (fun _ => 0)) : FsInv (start (snapOf fs) fs.disk) (fun _ => 0) := by
  refine ⟨h.tree.congr (clean_shape _), ?_, rfl⟩
  intro i
  simp only [start, snapOf]
  cases hf : fs.inodes i with
  | none => exact ⟨rfl, rfl, rfl⟩
  | some x =>
    have hl := h.loc i
    rw [hf] at hl
    refine local_clean hl ?_
    simp only [LocalAt] at hl
    cases hkind : x.kind <;> rw [hkind] at hl <;> simp at hl ⊢ <;> omega

/-! ## Every cage exits -/

theorem exit_cages {s : State} (h : Inv s []) {c : Nat} {cg : Cage} (hc : s.cages c = some cg) (st : Int) :
    (step s c (.exit st)).1.cages = upd s.cages c none ∧ (step s c (.exit st)).2.ret = .ok st := by
  obtain ⟨s', e1, e2, e3, e4⟩ := h.closeWhere hc (fun _ => true) maxFd (Nat.le_refl maxFd)
  have heq : Kernel.exit s c st = (s'.setCage c none, .r (.ok st)) := by
    unfold Kernel.exit; rw [e1]
  have hst : step s c (.exit st) = Kernel.exit s c st := by simp only [step, hc]
  rw [hst, heq]
  refine ⟨?_, rfl⟩
  simp only [State.setCage]
  rw [e4, upd_upd]

theorem exitAll_inv {s : State} (h : Inv s []) (k : Nat) :
    Inv (exitAll k s).1 [] ∧ (exitAll k s).2 = .ok 0 ∧ ∀ c, (exitAll k s).1.cages c = if c < k then none else s.cages c := by
  induction k with
  | zero => exact ⟨h, rfl, fun c => by simp [exitAll]⟩
  | succ k ih =>
    obtain ⟨i1, i2, i3⟩ := ih
    simp only [exitAll]
    generalize hx : exitAll k s = x at i1 i2 i3 ⊢
    obtain ⟨s1, r⟩ := x
    simp only at i1 i2 i3
    subst i2
    dsimp only
    cases hc : s1.cages k with
    | none =>
      refine ⟨i1, rfl, ?_⟩
      intro c
      by_cases e : c = k
      · subst e; simp [hc]
      · rw [i3]; by_cases h2 : c < k
        · rw [if_pos h2, if_pos (by omega)]
        · rw [if_neg h2, if_neg (by omega)]
    | some cg =>
      obtain ⟨e1, e2⟩ := exit_cages i1 hc 0
      refine ⟨i1.step k (.exit 0) (by simp only [Tame]; rw [hc]; trivial), e2, ?_⟩
      intro c
      dsimp only
      rw [e1]
      by_cases e : c = k
      · subst e; simp
      · rw [upd_ne _ _ e, i3]; by_cases h2 : c < k
        · rw [if_pos h2, if_pos (by omega)]
        · rw [if_neg h2, if_neg (by omega)]

/-- After every cage has exited nothing is open. -/
theorem exitAll_fs {s : State} (h : Inv s []) : FsInv (exitAll maxCage s).1.fs (fun _ => 0) := by
  obtain ⟨h1, -, h3⟩ := exitAll_inv h maxCage
  have := h1.fs
  have hz : ∀ i, tot (exitAll maxCage s).1 [] (.ino i) = 0 := by
    intro i
    have : cagesW (.ino i) (exitAll maxCage s).1.cages = 0 := by
      apply sumTo_zero
      intro c hc
      rw [h3 c, if_pos hc]; rfl
    simp only [tot, this, handW]
  simp only [hz] at this
  exact this

end Verif.Recovery
