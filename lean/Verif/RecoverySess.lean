import Verif.KernelInit
import Verif.RecoverySync

/-! # Sessions: from a start to a crash or a shutdown -/

namespace Verif.Recovery
open Verif.Path Verif.Fs Verif.Kernel

variable {f : Nat → Inode → Inode} {b : Snap}

open Classical in
/-- What is compared: everything but the number of open descriptors; for the numbers in `D` not the size either. -/
noncomputable def view (D : Nat → Prop) (i : Nat) (nd : Inode) : Inode :=
  if D i then { nd with ref := 0, size := 0 } else { nd with ref := 0 }

theorem view_blind (D : Nat → Prop) : Blind (view D) := by
  intro i nd r; simp only [view]

/-- The call empties the regular file `i` by opening it with `O_TRUNC`. -/
def Cuts (s : State) (c : Nat) (op : Op) (i : Nat) : Prop :=
  match op with
  | .openP p flags _ => flags &&& oTRUNC = oTRUNC ∧ ∃ cg par nd, s.cages c = some cg ∧ s.fs.walk (cg.path p) = some (some i, par) ∧
      s.fs.inodes i = some nd ∧ nd.kind = .file ∧ nd.size ≠ 0
  | _ => False

/-- The states between a start on a new disk or after a clean shutdown and the end of that session, with the metadata file
of the start.  Files emptied by an open with `O_TRUNC` are in `D`. -/
inductive Sess (D : Nat → Prop) : Snap → State → Prop
  | init : Sess D (snapOf format) init
  | restart {b : Snap} {s : State} : Life b s → s.fs.dom = [] →
      Sess D (snapOf (finalize s).1.fs) (boot (start (snapOf (finalize s).1.fs) (finalize s).1.fs.disk))
  | step {b : Snap} {s : State} (c : Nat) (op : Op) : Sess D b s → Tame s c op → (step s c op).2.ret ≠ .panic →
      (∀ i, Cuts s c op i → D i) → Sess D b (step s c op).1

theorem Sess.life {D : Nat → Prop} {s : State} (h : Sess D b s) : Life b s := by
  induction h with
  | init => exact .init
  | restart h hd => exact .restart h hd
  | step c op _ ht hp _ ih => exact .step c op ih ht hp

theorem pend_incref (hb : Blind f) {D : List Nat} {fs : Fs} (h : Pend f b D fs) : Pend f b D (increfRoot fs) := by
  unfold increfRoot
  split
  · exact h
  · exact h.setSame ‹_› (hb _ _ _) rfl

theorem pend_boot (hb : Blind f) {disk : Nat → Option (List UInt8)} (hn : ∀ i nd, b.inodes i = some nd → nd.isSock = false) :
    Pend f b [] (boot (start b disk)).fs := by
  have h0 : Pend f b [] (start b disk) := ⟨hn, fun i _ => rfl, by simp [start, maxNum]⟩
  exact pend_incref hb (pend_incref hb h0)

theorem format_nosock : ∀ i nd, format.inodes i = some nd → nd.isSock = false := by
  intro i nd h
  rcases format_lt h with rfl | rfl | rfl | rfl | rfl | rfl | rfl <;> cases h <;> decide

theorem snap_nosock {fs : Fs} (h : ∀ i nd, fs.inodes i = some nd → nd.isSock = false) :
    ∀ i nd, (snapOf fs).inodes i = some nd → nd.isSock = false := by
  intro i nd hi
  simp only [snapOf] at hi
  cases hx : fs.inodes i with
  | none => rw [hx] at hi; cases hi
  | some x => rw [hx] at hi; cases hi; exact h i x hx

theorem pend_init (hb : Blind f) : Pend f (snapOf format) [] init.fs := by
  have h0 : Pend f (snapOf format) [] (boot format).fs := by
    refine pend_incref hb (pend_incref hb ⟨format_nosock, ?_, ?_⟩)
    · intro i _
      show ((format.inodes i).map clean).map (f i) = (format.inodes i).map (f i)
      cases format.inodes i with
      | none => rfl
      | some nd => exact congrArg some (hb i nd 0)
    · show format.next ≤ format.next + 1
      omega
  refine pend_step hb (c := 0) (op := .mkdir pTmp sIRWXA) h0 (by simp only [Tame]; split <;> trivial) trivial ?_
  decide +kernel

theorem exitAll_pend (hb : Blind f) (k : Nat) {s : State} (h : Pend f b [] s.fs) : Pend f b [] (exitAll k s).1.fs := by
  induction k with
  | zero => exact h
  | succ k ih =>
    simp only [exitAll]
    generalize exitAll k s = x at ih ⊢
    obtain ⟨s1, r⟩ := x
    cases r
    case panic => exact ih
    all_goals
      dsimp only
      split
      · exact ih
      · rename_i hc
        have h2 := Pend.exit (s := s1) hb ih k 0
        simp only [step, hc]
        exact h2

/-- Sockets are in `UnixBind`; the states here have none. -/
theorem life_nosock {s : State} (h : Life b s) : ∃ b0, Pend (fun _ _ => newFile 0) b0 [] s.fs := by
  have hb : Blind (fun _ _ => newFile 0) := fun _ _ _ => rfl
  induction h with
  | init => exact ⟨_, pend_init hb⟩
  | step c op _ ht hp ih =>
    obtain ⟨b0, h0⟩ := ih
    refine ⟨b0, pend_step hb h0 ht ?_ hp⟩
    cases op <;> simp only [OpCutOk]
    intro cg _ i par nd _ _ _ _
    trivial
  | restart hl hd ih =>
    obtain ⟨b0, h0⟩ := ih
    rw [finalize_eq hd]
    exact ⟨_, pend_boot hb (snap_nosock (exitAll_pend hb _ h0).nosock)⟩
  | crash hl hs ih =>
    refine ⟨_, pend_boot hb ?_⟩
    intro i nd hi
    simp only [recover, fsck] at hi
    split at hi
    · cases hi
    · rename_i x hx
      split at hi
      · rename_i hk
        cases hi
        simp only [keeps] at hk
        cases hkind : nd.kind <;> simp_all [Inode.isSock]
      · cases hi

theorem sess_pend {D : Nat → Prop} {s : State} (h : Sess D b s) : Pend (view D) b [] s.fs := by
  have hb := view_blind D
  induction h with
  | init => exact pend_init hb
  | restart hl hd =>
    obtain ⟨b0, h0⟩ := life_nosock hl
    rw [finalize_eq hd]
    exact pend_boot hb (snap_nosock (exitAll_pend (fun _ _ _ => rfl) _ h0).nosock)
  | step c op _ ht hp hcut ih =>
    refine pend_step hb ih ht ?_ hp
    cases op <;> simp only [OpCutOk]
    intro cg hc i par nd h1 h2 h3 h4
    by_cases hz : nd.size = 0
    · have : ({ nd with size := 0 } : Inode) = nd := by rw [← hz]
      rw [this]
    · have := hcut i ⟨h1, cg, par, nd, hc, h2, h3, h4, hz⟩
      simp [view, this]

theorem life_plain {s : State} (h : Life b s) : ∀ i nd, b.inodes i = some nd → nd.ref = 0 := by
  induction h with
  | init =>
    intro i nd hi
    simp only [snapOf] at hi
    cases hx : format.inodes i with
    | none => rw [hx] at hi; cases hi
    | some x => rw [hx] at hi; cases hi; rfl
  | step _ _ _ _ _ ih => exact ih
  | restart =>
    intro i nd hi
    simp only [snapOf] at hi
    rename_i s _ _ _
    cases hx : (finalize s).1.fs.inodes i with
    | none => rw [hx] at hi; cases hi
    | some x => rw [hx] at hi; cases hi; rfl
  | crash _ _ ih => exact ih

/-- Without files emptied by open the disk tells all that is in memory. -/
theorem sess_synced {s : State} (h : Sess (fun _ => False) b s) : Synced b s.fs := by
  have hp := sess_pend h
  have hpl := life_plain h.life
  refine ⟨hpl, hp.nosock, ?_, hp.next⟩
  intro i
  have h1 := hp.same i (by simp)
  cases hr : replay b.inodes s.fs.log i with
  | none =>
    rw [hr] at h1
    cases hx : s.fs.inodes i with
    | none => rfl
    | some x => rw [hx] at h1; cases h1
  | some nd =>
    rw [hr] at h1
    have h0 := replay_clean hpl i nd hr
    cases hx : s.fs.inodes i with
    | none => rw [hx] at h1; cases h1
    | some x =>
      rw [hx] at h1
      simp only [Option.map_some, Option.some.injEq, view, if_false] at h1 ⊢
      rw [clean, ← h1]
      obtain ⟨kind, mode, size, link, ref, ents⟩ := nd
      simp only at h0
      subst h0; rfl

/-! ## Walking in a table without the loose inodes -/

/-- The same as a place of the tree. -/
def SamePlace (a b : Inode) : Prop := a.kind = b.kind ∧ a.link = b.link ∧ a.ents = b.ents

theorem not_loose_of_named {a : Nat → Option Inode} {next d j : Nat} {nd : Inode} {n : Name} (T : Tree a next) (hd : a d = some nd)
    (hm : (n, j) ∈ nd.ents) (hn : Proper n) : ¬ Loose a next j := fun hl => nameCount_zero T hl.2.1 hd hm hn

theorem walk_not_loose {a : Nat → Option Inode} {next d e : Nat} {ns : List Name} (T : Tree a next) (hw : Walk a d ns e)
    (hns : ∀ n ∈ ns, Proper n) (hd : ¬ Loose a next d) : ¬ Loose a next e := by
  induction hw with
  | here => exact hd
  | down h1 h2 h3 _ ih => exact ih (fun n hn => hns n (by simp [hn])) (not_loose_of_named T h1 h3 (hns _ (by simp)))

theorem root_not_loose {a : Nat → Option Inode} {next : Nat} : ¬ Loose a next rootIno := fun h => h.1 rfl

theorem walk_prune {a a' : Nat → Option Inode} {next d e : Nat} {ns : List Name} (T : Tree a next)
    (hsub : ∀ i nd', a' i = some nd' → ∃ nd, a i = some nd ∧ SamePlace nd' nd)
    (hkeep : ∀ i nd, a i = some nd → ¬ Loose a next i → ∃ nd', a' i = some nd' ∧ SamePlace nd' nd)
    (hns : ∀ n ∈ ns, Proper n) (hd : ¬ Loose a next d) : Walk a' d ns e ↔ Walk a d ns e := by
  constructor
  · intro hw
    clear hd hkeep
    induction hw with
    | here => exact .here _
    | down h1 h2 h3 _ ih =>
      obtain ⟨nd, g1, g2, -, g3⟩ := hsub _ _ h1
      refine .down g1 ?_ (by rw [← g3]; exact h3) (ih (fun n hn => hns n (by simp [hn])))
      simp only [Inode.isDir] at h2 ⊢; rw [← g2]; exact h2
  · intro hw
    induction hw with
    | here => exact .here _
    | down h1 h2 h3 _ ih =>
      obtain ⟨nd, g1, g2, -, g3⟩ := hkeep _ _ h1 hd
      refine .down g1 ?_ (by rw [g3]; exact h3)
        (ih (fun n hn => hns n (by simp [hn])) (not_loose_of_named T h1 h3 (hns _ (by simp))))
      simp only [Inode.isDir] at h2 ⊢; rw [g2]; exact h2

/-! ## After a crash -/

theorem view_place {D : Nat → Prop} {i : Nat} {x y : Inode} (h : view D i x = view D i y) : SamePlace x y ∧ x.mode = y.mode ∧
    (¬ D i → x.size = y.size) := by
  obtain ⟨k, m, s, l, r, es⟩ := x
  obtain ⟨k', m', s', l', r', es'⟩ := y
  unfold view at h
  by_cases hd : D i
  · simp only [hd, if_true, Inode.mk.injEq] at h
    exact ⟨⟨h.1, h.2.2.2.1, h.2.2.2.2.2⟩, h.2.1, fun e => absurd hd e⟩
  · simp only [hd, if_false, Inode.mk.injEq] at h
    exact ⟨⟨h.1, h.2.2.2.1, h.2.2.2.2.2⟩, h.2.1, fun _ => h.2.2.1⟩

theorem place_shape {a a' : Nat → Option Inode} (h : ∀ i, (∃ x y, a i = some x ∧ a' i = some y ∧ SamePlace x y) ∨ (a i = none ∧ a' i = none)) :
    SameShape a a' := by
  intro i
  rcases h i with ⟨x, y, h1, h2, h3, h4, h5⟩ | ⟨h1, h2⟩
  · simp [h1, h2, shape, h3, h4, h5]
  · simp [h1, h2]

/-- What a crash leaves, number by number. -/
theorem crash_table {D : Nat → Prop} {fs : Fs} (hp : Pend (view D) b [] fs) (T : Tree fs.inodes fs.next) :
    (∀ i nd', (recover b fs.log).inodes i = some nd' → ∃ nd, fs.inodes i = some nd ∧ keeps nd = true ∧ view D i nd' = view D i nd) ∧
    (∀ i nd, fs.inodes i = some nd → ¬ Loose fs.inodes fs.next i →
      ∃ nd', (recover b fs.log).inodes i = some nd' ∧ view D i nd' = view D i nd) := by
  have hpt : ∀ i, (∃ x y, replay b.inodes fs.log i = some x ∧ fs.inodes i = some y ∧ view D i x = view D i y) ∨
      (replay b.inodes fs.log i = none ∧ fs.inodes i = none) := by
    intro i
    have h1 := hp.same i (by simp)
    cases hr : replay b.inodes fs.log i <;> cases hx : fs.inodes i <;> rw [hr, hx] at h1
    · exact .inr ⟨rfl, rfl⟩
    · cases h1
    · cases h1
    · exact .inl ⟨_, _, rfl, rfl, by simpa using h1⟩
  have hk : ∀ x y, SamePlace x y → keeps x = keeps y := by
    rintro x y ⟨h1, h2, -⟩
    simp only [keeps, h1, h2]
  refine ⟨?_, ?_⟩
  · intro i nd' hi
    simp only [recover, fsck] at hi
    rcases hpt i with ⟨x, y, h1, h2, h3⟩ | ⟨h1, h2⟩
    · rw [h1] at hi
      dsimp only at hi
      split at hi
      · rename_i hkx
        cases hi
        exact ⟨y, h2, by rw [← hk _ _ (view_place h3).1]; exact hkx, h3⟩
      · cases hi
    · rw [h1] at hi; cases hi
  · intro i nd hi hl
    rcases hpt i with ⟨x, y, h1, h2, h3⟩ | ⟨h1, h2⟩
    · rw [hi] at h2; cases h2
      have hkn : keeps nd = true := by
        rcases fsck_drops T hp.nosock i with h4 | ⟨-, h4⟩
        · simp only [fsck, hi] at h4
          by_cases hkk : keeps nd = true
          · exact hkk
          · rw [if_neg hkk] at h4; cases h4
        · exact absurd h4 hl
      refine ⟨x, ?_, h3⟩
      simp only [recover, fsck, h1]
      rw [if_pos (by rw [hk _ _ (view_place h3).1]; exact hkn)]
    · rw [hi] at h2; cases h2

/-! ## Shutdown -/

/-- Only counts of open descriptors differ, and what had no name may be gone. -/
structure Shed (a b : Fs) : Prop where
  next : b.next = a.next
  at_ : ∀ i, (a.inodes i = none ∧ b.inodes i = none) ∨
    (∃ nd, a.inodes i = some nd ∧ keeps nd = false ∧ b.inodes i = none) ∨
    (∃ nd r, a.inodes i = some nd ∧ b.inodes i = some { nd with ref := r } ∧ b.disk i = a.disk i)

theorem Shed.refl (a : Fs) : Shed a a := by
  refine ⟨rfl, fun i => ?_⟩
  cases h : a.inodes i with
  | none => exact .inl ⟨rfl, rfl⟩
  | some nd => exact .inr (.inr ⟨nd, nd.ref, rfl, rfl, rfl⟩)

theorem Shed.trans {a b c : Fs} (h1 : Shed a b) (h2 : Shed b c) : Shed a c := by
  refine ⟨h2.next.trans h1.next, fun i => ?_⟩
  rcases h1.at_ i with ⟨p1, p2⟩ | ⟨nd, p1, p2, p3⟩ | ⟨nd, r, p1, p2, p3⟩
  · rcases h2.at_ i with ⟨q1, q2⟩ | ⟨x, q1, -⟩ | ⟨x, r, q1, -⟩
    · exact .inl ⟨p1, q2⟩
    · rw [p2] at q1; cases q1
    · rw [p2] at q1; cases q1
  · rcases h2.at_ i with ⟨q1, q2⟩ | ⟨x, q1, -⟩ | ⟨x, r, q1, -⟩
    · exact .inr (.inl ⟨nd, p1, p2, q2⟩)
    · rw [p3] at q1; cases q1
    · rw [p3] at q1; cases q1
  · rcases h2.at_ i with ⟨q1, q2⟩ | ⟨x, q1, q2, q3⟩ | ⟨x, r', q1, q2, q3⟩
    · rw [p2] at q1; cases q1
    · rw [p2] at q1; cases q1
      exact .inr (.inl ⟨nd, p1, q2, q3⟩)
    · rw [p2] at q1; cases q1
      exact .inr (.inr ⟨nd, r', p1, q2, q3.trans p3⟩)

theorem Shed.one {a b : Fs} (i : Nat) (hn : b.next = a.next) (ho : ∀ k, k ≠ i → b.inodes k = a.inodes k ∧ b.disk k = a.disk k)
    (hi : (a.inodes i = none ∧ b.inodes i = none) ∨
      (∃ nd, a.inodes i = some nd ∧ keeps nd = false ∧ b.inodes i = none) ∨
      (∃ nd r, a.inodes i = some nd ∧ b.inodes i = some { nd with ref := r } ∧ b.disk i = a.disk i)) : Shed a b := by
  refine ⟨hn, fun k => ?_⟩
  by_cases e : k = i
  · subst e; exact hi
  · obtain ⟨h1, h2⟩ := ho k e
    rcases (Shed.refl a).at_ k with ⟨p1, p2⟩ | ⟨nd, p1, p2, p3⟩ | ⟨nd, r, p1, p2, p3⟩
    · exact .inl ⟨p1, by rw [h1]; exact p2⟩
    · rw [p1] at p3; cases p3
    · exact .inr (.inr ⟨nd, r, p1, by rw [h1]; exact p2, h2⟩)

theorem Shed.closeIno (fs : Fs) (i : Nat) : Shed fs (fs.closeIno i).1 := by
  unfold Fs.closeIno
  cases hi : fs.inodes i with
  | none => exact .refl _
  | some nd =>
    dsimp only
    cases hk : nd.kind <;> dsimp only
    all_goals (try rw [← hk])
    all_goals repeat' split
    all_goals first
      | exact .refl _
      | (refine .one i rfl ?_ ?_
         · intro k hne
           simp only [Fs.logIno, Fs.rmHost, Fs.set, upd_apply, if_neg hne, and_self]
         · first
            | (refine .inr (.inr ⟨nd, nd.ref - 1, hi, ?_, ?_⟩) <;> simp [Fs.logIno, Fs.set, *]; done)
            | (refine .inr (.inl ⟨nd, hi, ?_, ?_⟩) <;> simp_all [keeps, Fs.logIno, Fs.rmHost, Fs.set]; done))

theorem Shed.drop (s : State) (d : Desc) : Shed s.fs (s.drop d).1.fs := by
  cases d <;> simp only [State.drop]
  · exact .closeIno ..
  · split <;> exact .refl _
  all_goals exact .refl _

theorem Shed.closeSlot (s : State) (c fd : Nat) (o : Option Desc) : Shed s.fs (s.closeSlot c fd o).1.fs := by
  simp only [State.closeSlot]
  split
  · exact .refl _
  · rename_i d
    have h := Shed.drop s d
    split <;> rename_i e <;> rw [e] at h
    · rw [setFd_fs']; exact h
    · exact h

theorem Shed.closeWhere (sel : Desc → Bool) (c : Nat) (k : Nat) (s : State) : Shed s.fs (closeWhere sel c k s).1.fs := by
  induction k with
  | zero => exact .refl _
  | succ k ih =>
    simp only [Kernel.closeWhere]
    split <;> rename_i e <;> rw [e] at ih
    · exact ih
    · repeat' split
      all_goals first | exact ih | exact ih.trans (.closeSlot ..)

theorem Shed.exit (s : State) (c : Nat) (st : Int) : Shed s.fs (Kernel.exit s c st).1.fs := by
  have h2 := Shed.closeWhere (fun _ => true) c maxFd s
  unfold Kernel.exit
  generalize Kernel.closeWhere (fun _ => true) c maxFd s = x at h2 ⊢
  obtain ⟨s', r⟩ := x
  cases r <;> exact h2

theorem Shed.exitAll (k : Nat) (s : State) : Shed s.fs (exitAll k s).1.fs := by
  induction k with
  | zero => exact .refl _
  | succ k ih =>
    simp only [Recovery.exitAll]
    generalize Recovery.exitAll k s = x at ih ⊢
    obtain ⟨s1, r⟩ := x
    cases r
    case panic => exact ih
    all_goals
      dsimp only
      split
      · exact ih
      · rename_i hc
        simp only [step, hc]
        exact ih.trans (Shed.exit s1 k 0)

end Verif.Recovery
