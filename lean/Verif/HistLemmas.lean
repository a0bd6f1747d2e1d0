import Verif.NsWitness

/-!
What every system call does to the set of inodes and to file contents, without any assumption on the state.
Used by `HistProps`.
-/

set_option linter.unusedSimpArgs false

namespace Verif.Kernel
open Verif.Fs Verif.Path Verif.Getdents

/-- The content of a file system's inode. -/
def cont (fs : Fs) (i : Nat) : List UInt8 := (fs.disk i).getD []

/-- From `fs` to `fs'`: numbers are handed out upwards, what exists existed before or has a new number, and what existed
before has its kind, and also its size and content unless `E` says otherwise. -/
structure Evo (E : Nat → Prop) (fs fs' : Fs) : Prop where
  next : fs.next ≤ fs'.next
  old : ∀ i nd', fs'.inodes i = some nd' →
    (∃ nd, fs.inodes i = some nd ∧ nd'.kind = nd.kind ∧ (E i ∨ (nd'.size = nd.size ∧ cont fs' i = cont fs i))) ∨
    (fs.next ≤ i ∧ i < fs'.next)

/-- Nothing new, all contents kept. -/
structure Sub (fs fs' : Fs) : Prop where
  next : fs'.next = fs.next
  old : ∀ i nd', fs'.inodes i = some nd' →
    ∃ nd, fs.inodes i = some nd ∧ nd'.kind = nd.kind ∧ nd'.size = nd.size ∧ cont fs' i = cont fs i

theorem Sub.refl (fs : Fs) : Sub fs fs := ⟨rfl, fun _ nd h => ⟨nd, h, rfl, rfl, rfl⟩⟩

theorem Sub.trans {a b c : Fs} (h1 : Sub a b) (h2 : Sub b c) : Sub a c := by
  refine ⟨h2.next.trans h1.next, fun i nd' h => ?_⟩
  obtain ⟨nd, x1, x2, x3, x4⟩ := h2.old i nd' h
  obtain ⟨nd0, y1, y2, y3, y4⟩ := h1.old i nd x1
  exact ⟨nd0, y1, x2.trans y2, x3.trans y3, x4.trans y4⟩

theorem Sub.evo {a b : Fs} (h : Sub a b) (E : Nat → Prop) : Evo E a b := by
  refine ⟨by rw [h.next]; exact Nat.le_refl _, fun i nd' hi => ?_⟩
  obtain ⟨nd, x1, x2, x3, x4⟩ := h.old i nd' hi
  exact .inl ⟨nd, x1, x2, .inr ⟨x3, x4⟩⟩

/-- Rewriting one inode, but for its kind and size. -/
theorem Sub.set {fs : Fs} {i : Nat} {nd : Inode} (hi : fs.inodes i = some nd) (m : BitVec 32) (l r : Nat)
    (e : List (Name × Nat)) : Sub fs (fs.set i (some { nd with mode := m, link := l, ref := r, ents := e })) := by
  refine ⟨rfl, fun j x hj => ?_⟩
  simp only [Fs.set, upd_apply] at hj
  split at hj
  · rename_i e; subst e; cases hj; exact ⟨nd, hi, rfl, rfl, rfl⟩
  · exact ⟨x, hj, rfl, rfl, rfl⟩

/-- Removing one inode. -/
theorem Sub.del (fs : Fs) (i : Nat) : Sub fs (fs.set i none) := by
  refine ⟨rfl, fun j x hj => ?_⟩
  simp only [Fs.set, upd_apply] at hj
  split at hj
  · cases hj
  · exact ⟨x, hj, rfl, rfl, rfl⟩

/-- Fields that do not matter. -/
theorem Sub.same {a b : Fs} (h1 : b.next = a.next) (h2 : b.inodes = a.inodes) (h3 : ∀ i, cont b i = cont a i) : Sub a b :=
  ⟨h1, fun i nd' h => ⟨nd', h2 ▸ h, rfl, rfl, h3 i⟩⟩

theorem Sub.log (fs : Fs) (i : Nat) : Sub fs (fs.logIno i) := by
  refine .same ?_ ?_ ?_ <;> simp only [Fs.logIno] <;> intros <;> rfl

theorem cont_openObj (fs : Fs) (i sz j : Nat) : cont (fs.openObj i sz) j = cont fs j := by
  simp only [Fs.openObj, cont]
  split
  · rfl
  · simp only [upd_apply]; split
    · rename_i e; subst e; rfl
    · rfl

theorem Sub.openObj (fs : Fs) (i sz : Nat) : Sub fs (fs.openObj i sz) := by
  refine .same ?_ ?_ (cont_openObj fs i sz) <;> simp only [Fs.openObj] <;> split <;> rfl

/-- Removing an inode together with its host file. -/
theorem Sub.delHost (fs : Fs) (i : Nat) : Sub fs ((fs.set i none).rmHost i) := by
  refine ⟨rfl, fun j x hj => ?_⟩
  simp only [Fs.set, Fs.rmHost, upd_apply] at hj
  split at hj
  · cases hj
  · rename_i hne; exact ⟨x, hj, rfl, rfl, by simp only [cont, Fs.set, Fs.rmHost, upd_ne _ _ hne]⟩

theorem Sub.removeFromParent (fs : Fs) (par : Nat) (p : List Name) : Sub fs (fs.removeFromParent par p).1 := by
  simp only [Fs.removeFromParent]
  repeat' split
  all_goals first | exact .refl _ | exact .set ‹_› ..

theorem Sub.unlink (fs : Fs) (p : List Name) : Sub fs (fs.unlink p).1 := by
  simp only [Fs.unlink]
  split
  · exact .refl _
  · exact .refl _
  · exact .refl _
  · split
    · exact .refl _
    · rename_i i par _ _ nd hnd
      split
      · exact .refl _
      · have h1 : Sub fs (fs.set i (some { nd with link := nd.link - 1 })) := .set hnd ..
        have h2 := Sub.removeFromParent (fs.set i (some { nd with link := nd.link - 1 })) par p
        split
        · rename_i fs2 v e
          rw [e] at h2
          have h3 : Sub fs2 (if nd.link - 1 = 0 ∧ nd.ref = 0 then
              if nd.isFile then (fs2.set i none).rmHost i else fs2.set i none else fs2) := by
            repeat' split
            · exact .delHost ..
            · exact .del ..
            · exact .refl _
          have h4 : ∀ (f : Fs) d, Sub f { f with dom := d } := fun f d => .same rfl rfl (fun _ => rfl)
          have h5 := fun d => ((h1.trans h2).trans h3).trans (h4 _ d)
          split
          · exact h5 _
          · split
            · exact h5 _
            · exact ((h5 _).trans (.log ..)).trans (.log ..)
        · rename_i fs2 r _ e
          rw [e] at h2
          exact h1.trans h2

theorem Sub.rmdir (fs : Fs) (p : List Name) : Sub fs (fs.rmdir p).1 := by
  simp only [Fs.rmdir]
  split
  · exact .refl _
  · exact .refl _
  · exact .refl _
  · rename_i i par _
    split
    · exact .refl _
    · split
      · exact .refl _
      · split
        · exact .refl _
        · rename_i nd hnd
          have h1 : ∀ b : Bool, Sub fs (if b then fs.set i (some { nd with link := 2 }) else fs) := by
            intro b; cases b
            · exact .refl _
            · exact .set hnd ..
          have h1' : Sub fs (if nd.ref = 0 then fs.set i (some { nd with link := 2 }) else fs) := by
            have := h1 (decide (nd.ref = 0)); simpa using this
          generalize (if nd.ref = 0 then fs.set i (some { nd with link := 2 }) else fs) = fs1 at h1' ⊢
          have h2 := Sub.removeFromParent fs1 par p
          split
          · split
            · exact .refl _
            · split
              · exact .refl _
              · split
                · exact .refl _
                · split
                  · rename_i e
                    rw [e] at h2
                    split
                    · exact (((h1'.trans h2).trans (.del ..)).trans (.log ..)).trans (.log ..)
                    · exact ((h1'.trans h2).trans (.log ..)).trans (.log ..)
                  · rename_i e
                    rw [e] at h2
                    exact h1'.trans h2
          · exact .refl _

theorem Sub.rename (fs : Fs) (o n : List Name) : Sub fs (fs.rename o n).1 := by
  simp only [Fs.rename]
  have h4 : ∀ (f : Fs) d, Sub f { f with dom := d } := fun f d => .same rfl rfl (fun _ => rfl)
  repeat' split
  all_goals try exact .refl _
  · rename_i hp _ _ _
    exact ((Sub.set hp ..).trans (.log ..)).trans (h4 ..)
  · exact h4 ..

theorem Sub.chmodIno (fs : Fs) (i : Nat) (m : BitVec 32) : Sub fs (fs.chmodIno i m).1 := by
  simp only [Fs.chmodIno]
  repeat' split
  all_goals first
    | exact .refl _
    | exact .set ‹_› ..
    | exact (Sub.set ‹_› ..).trans (.log ..)

theorem Sub.chmod (fs : Fs) (p : List Name) (m : BitVec 32) : Sub fs (fs.chmod p m).1 := by
  simp only [Fs.chmod]
  repeat' split
  all_goals first | exact .refl _ | exact .chmodIno ..

theorem Sub.link (fs : Fs) (o n : List Name) : Sub fs (fs.link o n).1 := by
  simp only [Fs.link]
  split
  · exact .refl _
  · split
    · exact .refl _
    · exact .refl _
    · split
      · exact .refl _
      · rename_i i _ _ _ nd hnd
        have h1 : Sub fs (fs.set i (some { nd with link := nd.link + 1 })) := .set hnd ..
        have hx : (fs.set i (some { nd with link := nd.link + 1 })).inodes i = some { nd with link := nd.link + 1 } := by
          simp [Fs.set]
        have h2 := h1.trans (Sub.set hx nd.mode (nd.link + 1 - 1) nd.ref nd.ents)
        repeat' split
        all_goals first
          | exact .refl _
          | exact h1
          | exact h2
          | exact ((h1.trans (.set ‹_› ..)).trans (.log ..)).trans (.log ..)

theorem Sub.incRef {fs fs' : Fs} {i : Nat} (h : fs.incRef i = some fs') : Sub fs fs' := by
  simp only [Fs.incRef] at h
  split at h
  · cases h
  · cases h; exact .set ‹_› ..

theorem Sub.closeIno (fs : Fs) (i : Nat) : Sub fs (fs.closeIno i).1 := by
  simp only [Fs.closeIno]
  split
  · exact .refl _
  · rename_i nd hnd
    have h1 : Sub fs (fs.set i (some { nd with ref := nd.ref - 1 })) := .set hnd ..
    have h4 : ∀ (f : Fs) d, Sub f { f with fobj := d } := fun f d => .same rfl rfl (fun _ => rfl)
    repeat' split
    all_goals first
      | exact .refl _
      | exact h1
      | exact h1.trans (h4 ..)
      | exact ((h1.trans (h4 ..)).trans (.delHost ..)).trans (.log ..)
      | exact (h1.trans (.del ..)).trans (.log ..)
      | exact h1.trans (.log ..)

/-! ## Creation -/

theorem Evo.create {fs fs' : Fs} {par : Nat} {n : Name} {f : Nat → Inode} (h : fs.create par n f = some fs') :
    Evo (fun _ => False) fs fs' ∧ fs'.next = fs.next + 1 ∧ ∀ j, cont fs' j = cont fs j := by
  simp only [Fs.create] at h
  repeat' split at h
  all_goals cases h
  rename_i pd hpd _
  refine ⟨⟨by simp [Fs.logIno], fun i nd' hi => ?_⟩, by simp [Fs.logIno], fun j => by simp [Fs.logIno, cont]⟩
  simp only [Fs.logIno, upd_apply] at hi
  split at hi
  · rename_i e; exact .inr ⟨by omega, by simp [Fs.logIno]; omega⟩
  · split at hi
    · rename_i e; subst e; cases hi
      exact .inl ⟨pd, hpd, rfl, .inr ⟨rfl, by simp [Fs.logIno, cont]⟩⟩
    · exact .inl ⟨nd', hi, rfl, .inr ⟨rfl, by simp [Fs.logIno, cont]⟩⟩

theorem Evo.trans_sub {E : Nat → Prop} {a b c : Fs} (h1 : Evo E a b) (h2 : Sub b c) : Evo E a c := by
  refine ⟨by rw [h2.next]; exact h1.next, fun i nd' h => ?_⟩
  obtain ⟨nd, x1, x2, x3, x4⟩ := h2.old i nd' h
  rw [h2.next]
  rcases h1.old i nd x1 with ⟨nd0, y1, y2, y3⟩ | y
  · refine .inl ⟨nd0, y1, x2.trans y2, ?_⟩
    rcases y3 with y | ⟨y, z⟩
    · exact .inl y
    · exact .inr ⟨x3.trans y, x4.trans z⟩
  · exact .inr y

theorem Evo.mono {E E' : Nat → Prop} {a b : Fs} (h1 : Evo E a b) (h : ∀ i, E i → E' i) : Evo E' a b := by
  refine ⟨h1.next, fun i nd' hi => ?_⟩
  rcases h1.old i nd' hi with ⟨nd0, y1, y2, y3⟩ | y
  · exact .inl ⟨nd0, y1, y2, y3.imp_left (h i)⟩
  · exact .inr y

theorem Evo.mkdir (fs : Fs) (p : List Name) (m : BitVec 32) : Evo (fun _ => False) fs (fs.mkdir p m).1 := by
  simp only [Fs.mkdir]
  repeat' split
  all_goals first | exact (Sub.refl _).evo _ | exact (Evo.create ‹_›).1

theorem Evo.mknod (fs : Fs) (p : List Name) (m : BitVec 32) (d : BitVec 64) :
    Evo (fun _ => False) fs (fs.mknod p m d).1 := by
  simp only [Fs.mknod]
  repeat' split
  all_goals first | exact (Sub.refl _).evo _ | exact (Evo.create ‹_›).1

/-- A change of one inode's size and content. -/
theorem Evo.one {fs fs' : Fs} {i : Nat} (h1 : fs'.next = fs.next)
    (h2 : ∀ j, j ≠ i → fs'.inodes j = fs.inodes j ∧ cont fs' j = cont fs j)
    (h3 : ∀ nd', fs'.inodes i = some nd' → ∃ nd, fs.inodes i = some nd ∧ nd'.kind = nd.kind) : Evo (· = i) fs fs' := by
  refine ⟨by rw [h1]; exact Nat.le_refl _, fun j nd' hj => .inl ?_⟩
  by_cases e : j = i
  · subst e
    obtain ⟨nd, x, y⟩ := h3 nd' hj
    exact ⟨nd, x, y, .inl rfl⟩
  · rw [(h2 j e).1] at hj
    exact ⟨nd', hj, rfl, .inr ⟨rfl, (h2 j e).2⟩⟩

theorem openObj_inodes (fs : Fs) (i sz : Nat) : (fs.openObj i sz).inodes = fs.inodes ∧ (fs.openObj i sz).next = fs.next := by
  simp only [Fs.openObj]; split <;> exact ⟨rfl, rfl⟩

theorem Evo.openExisting (fs : Fs) (i : Nat) (flags : BitVec 32) :
    Evo (fun j => j = i ∧ flags &&& oTRUNC = oTRUNC ∧ ∃ k, (fs.openExisting i flags).2 = .opened i k)
      fs (fs.openExisting i flags).1 := by
  simp only [Fs.openExisting]
  repeat' split
  all_goals first
    | exact (Sub.refl _).evo _
    | exact (Sub.set ‹_› ..).evo _
    | skip
  · rename_i _ nd hnd _ hk ht _ d hd
    refine (Evo.one (i := i) ?_ ?_ ?_).mono (fun j e => ⟨e, ht, _, rfl⟩)
    · simp only [Fs.set, openObj_inodes, Fs.rmHost]
    · intro j hj
      refine ⟨by simp [Fs.set, openObj_inodes, Fs.rmHost, hj], ?_⟩
      have := cont_openObj (({ fs with fobj := upd fs.fobj i none } : Fs).rmHost i) i 0 j
      simp only [Fs.set, cont] at this ⊢
      rw [this]
      simp only [Fs.rmHost, upd_ne _ _ hj]
    · intro nd' h
      simp only [Fs.set, upd_same] at h
      cases h
      exact ⟨nd, hnd, rfl⟩
  · rename_i _ nd hnd _ hk _
    exact ((Sub.openObj fs i nd.size).trans (.set (by rw [(openObj_inodes ..).1]; exact hnd) ..)).evo _

theorem Evo.openP (fs : Fs) (p : List Name) (flags mode : BitVec 32) :
    Evo (fun j => (∃ par, fs.walk p = some (some j, par)) ∧ flags &&& oTRUNC = oTRUNC ∧ ∃ k, (fs.openP p flags mode).2 = .opened j k)
      fs (fs.openP p flags mode).1 := by
  simp only [Fs.openP]
  split
  · exact (Sub.refl _).evo _
  · rename_i i par hw
    refine (Evo.openExisting fs i flags).mono ?_
    rintro j ⟨rfl, h⟩
    exact ⟨⟨par, hw⟩, h⟩
  · exact (Sub.refl _).evo _
  · repeat' split
    all_goals try exact (Sub.refl _).evo _
    rename_i hc
    exact ((Evo.create hc).1.mono (fun _ h => h.elim)).trans_sub (.openObj ..)

theorem Evo.writeIno {fs fs' : Fs} {i off : Nat} {nd : Inode} {data : List UInt8} (hi : fs.inodes i = some nd)
    (h : fs.writeIno i nd off data = some fs') : Evo (· = i) fs fs' := by
  have hw : ∀ {f f' : Fs} {o d}, f.writeAt i o d = some f' → f'.next = f.next ∧ f'.inodes = f.inodes ∧
      ∀ j, j ≠ i → cont f' j = cont f j := by
    intro f f' o d h
    simp only [Fs.writeAt] at h
    repeat' split at h
    all_goals cases h
    exact ⟨rfl, rfl, fun j hj => by simp only [cont, upd_ne _ _ hj]⟩
  simp only [Fs.writeIno] at h
  generalize hx : (if off > nd.size then fs.writeAt i nd.size (List.replicate (off - nd.size) 0)
    else if (fs.fobj i).isNone then none else some fs) = x at h
  cases x with
  | none => cases h
  | some fs1 =>
    have h1 : fs1.next = fs.next ∧ fs1.inodes = fs.inodes ∧ ∀ j, j ≠ i → cont fs1 j = cont fs j := by
      split at hx
      · exact hw hx
      · split at hx
        · cases hx
        · cases hx; exact ⟨rfl, rfl, fun _ _ => rfl⟩
    simp only at h
    split at h
    · cases h
    · rename_i fs2 e
      obtain ⟨a1, a2, a3⟩ := hw e
      split at h
      · cases h
        refine Evo.one (by simp [Fs.logIno, Fs.set, a1, h1]) ?_ ?_
        · intro j hj
          exact ⟨by simp [Fs.logIno, Fs.set, upd_ne _ _ hj, a2, h1], by
            rw [← h1.2.2 j hj, ← a3 j hj]; rfl⟩
        · intro nd' hnd'
          simp only [Fs.logIno, Fs.set, upd_same] at hnd'
          cases hnd'; exact ⟨nd, hi, rfl⟩
      · cases h
        refine Evo.one (a1.trans h1.1) ?_ ?_
        · intro j hj
          exact ⟨by rw [a2, h1.2.1], (a3 j hj).trans (h1.2.2 j hj)⟩
        · intro nd' hnd'
          rw [a2, h1.2.1] at hnd'
          exact ⟨nd', hnd', rfl⟩

theorem Evo.truncIno (fs : Fs) (i : Nat) (len : Int) (b : Bool) :
    Evo (fun j => j = i ∧ (fs.truncIno i len b).2 = .ok 0) fs (fs.truncIno i len b).1 := by
  simp only [Fs.truncIno]
  split
  · exact (Sub.refl _).evo _
  · split
    · exact (Sub.refl _).evo _
    · rename_i nd hnd
      split
      · exact (Sub.refl _).evo _
      · exact (Sub.refl _).evo _
      · exact (Sub.refl _).evo _
      · split
        · exact (Sub.refl _).evo _
        · generalize hx : (if nd.size < len.toNat then (fs.openObj i nd.size).writeAt i nd.size (List.replicate (len.toNat - nd.size) 0)
            else match (fs.openObj i nd.size).fobj i with
              | none => none
              | some sz =>
                if len.toNat > sz then none
                else some { fs.openObj i nd.size with
                  disk := upd (fs.openObj i nd.size).disk i (some ((((fs.openObj i nd.size).disk i).getD []).take len.toNat))
                  fobj := upd (fs.openObj i nd.size).fobj i (some len.toNat) }) = x
          cases x with
          | none => exact (Sub.refl _).evo _
          | some fs2 =>
            have h1 : fs2.next = fs.next ∧ fs2.inodes = fs.inodes ∧ ∀ j, j ≠ i → cont fs2 j = cont fs j := by
              have ho := openObj_inodes fs i nd.size
              have hc := cont_openObj fs i nd.size
              split at hx
              · simp only [Fs.writeAt] at hx
                repeat' split at hx
                all_goals cases hx
                exact ⟨ho.2, ho.1, fun j hj => by
                  rw [← hc j]; simp only [cont, upd_ne _ _ hj]⟩
              · repeat' split at hx
                all_goals cases hx
                exact ⟨ho.2, ho.1, fun j hj => by
                  rw [← hc j]; simp only [cont, upd_ne _ _ hj]⟩
            refine (Evo.one (i := i) (by simp [Fs.logIno, Fs.set, h1]) ?_ ?_).mono (fun j e => ⟨e, rfl⟩)
            · intro j hj
              exact ⟨by simp [Fs.logIno, Fs.set, upd_ne _ _ hj, h1], by
                rw [← h1.2.2 j hj]; rfl⟩
            · intro nd' hnd'
              simp only [Fs.logIno, Fs.set, upd_same] at hnd'
              cases hnd'; exact ⟨nd, hnd, rfl⟩

/-! ## States -/

theorem setFd_fs' (s : State) (c fd : Nat) (o : Option Desc) : (s.setFd c fd o).fs = s.fs := by
  simp only [State.setFd]; split <;> rfl

theorem Sub.bump {s s' : State} {d : Desc} (h : s.bump d = some s') : Sub s.fs s'.fs := by
  cases d <;> simp only [State.bump] at h
  · split at h
    · cases h
    · cases h; exact .incRef ‹_›
  · split at h
    · cases h
    · cases h; exact .refl _
  all_goals cases h; exact .refl _

theorem Sub.drop (s : State) (d : Desc) : Sub s.fs (s.drop d).1.fs := by
  cases d <;> simp only [State.drop]
  · exact .closeIno ..
  · split <;> exact .refl _
  all_goals exact .refl _

theorem Sub.closeSlot (s : State) (c fd : Nat) (o : Option Desc) : Sub s.fs (s.closeSlot c fd o).1.fs := by
  simp only [State.closeSlot]
  split
  · exact .refl _
  · rename_i d
    have h := Sub.drop s d
    split <;> rename_i e <;> rw [e] at h
    · rw [setFd_fs']; exact h
    · exact h

theorem Sub.putCopy (s : State) (c : Nat) (d : Desc) (n : Nat) : Sub s.fs (s.putCopy c d n).1.fs := by
  simp only [State.putCopy]
  split
  · exact .refl _
  · rw [setFd_fs']; exact .bump ‹_›

theorem Sub.dupFrom (s : State) (c : Nat) (cg : Cage) (d : Desc) (n : Nat) : Sub s.fs (dupFrom s c cg d n).1.fs := by
  simp only [Kernel.dupFrom]
  repeat' split
  all_goals first | exact .refl _ | exact .putCopy ..

theorem Sub.closeWhere (sel : Desc → Bool) (c : Nat) (k : Nat) (s : State) :
    Sub s.fs (closeWhere sel c k s).1.fs := by
  induction k with
  | zero => exact .refl _
  | succ k ih =>
    simp only [Kernel.closeWhere]
    split <;> rename_i e <;> rw [e] at ih
    · exact ih
    · repeat' split
      all_goals first | exact ih | exact ih.trans (.closeSlot ..)

theorem Sub.forkCopy {t : Table} {ch k : Nat} {s s' : State} (h : forkCopy t ch k s = some s') : Sub s.fs s'.fs := by
  induction k generalizing s' with
  | zero => cases h; exact .refl _
  | succ k ih =>
    simp only [Kernel.forkCopy] at h
    split at h
    · cases h
    · rename_i s1 e
      split at h
      · cases h; exact ih e
      · split at h
        · cases h
        · cases h
          rw [setFd_fs']
          exact (ih e).trans (.bump ‹_›)


theorem Sub.exit (s : State) (c : Nat) (st : Int) : Sub s.fs (exit s c st).1.fs := by
  have h2 := Sub.closeWhere (fun _ => true) c maxFd s
  unfold Kernel.exit
  generalize Kernel.closeWhere (fun _ => true) c maxFd s = x at h2 ⊢
  obtain ⟨s', r⟩ := x
  cases r <;> exact h2

/-- The call may change the content of inode `i`. -/
def Touch (s : State) (c : Nat) (op : Op) (i : Nat) : Prop :=
  (∃ v, (step s c op).2.ret = .ok v) ∧ ∃ cg, s.cages c = some cg ∧
  match op with
  | .write fd _ | .writev fd _ | .pwrite fd _ _ | .ftruncate fd _ =>
    ∃ pos f, getFd cg.fds fd = some (some (.file i pos f)) ∧ isRdonly f = false
  | .truncate p _ => ∃ par, s.fs.walk (cg.path p) = some (some i, par)
  | .openP p flags _ => (∃ par, s.fs.walk (cg.path p) = some (some i, par)) ∧ flags &&& oTRUNC = oTRUNC
  | _ => False

theorem nonEmpty_evo {E : Nat → Prop} {p : Str} {s : State} {r : State × Out} (h : Evo E s.fs r.1.fs) :
    Evo E s.fs (nonEmpty p s r).1.fs := by
  simp only [nonEmpty]; split
  · exact (Sub.refl _).evo _
  · exact h

theorem step_evo (s : State) (c : Nat) (op : Op) : Evo (Touch s c op) s.fs (step s c op).1.fs := by
  cases hc : s.cages c with
  | none => simp only [step, hc]; exact (Sub.refl _).evo _
  | some cg =>
    have S : ∀ {b : Fs}, Sub s.fs b → Evo (Touch s c op) s.fs b := fun h => h.evo _
    have R : Evo (Touch s c op) s.fs s.fs := S (.refl _)
    have F : ∀ {b : Fs}, Evo (fun _ => False) s.fs b → Evo (Touch s c op) s.fs b := fun h => h.mono (fun _ h => h.elim)
    cases op with
    | openP p flags mode =>
      have h := Evo.openP s.fs (cg.path p) flags mode
      generalize hT : Touch s c (.openP p flags mode) = T at *
      simp only [step, hc, openSys]
      split
      · exact R
      · split
        · exact R
        · split
          · rename_i hp _ fd hfd _ fs r e
            rw [e] at h
            exact h.mono (by rintro j ⟨-, -, k, hk⟩; cases hk)
          · rename_i hp _ fd hfd _ fs i size e
            rw [e] at h
            rw [setFd_fs']
            refine h.mono ?_
            rintro j ⟨h1, h2, k, hk⟩
            rw [← hT]
            refine ⟨⟨fd, ?_⟩, cg, hc, h1, h2⟩
            simp only [step, hc, openSys, if_neg hp, hfd, e, Out.r]
    | mkdir p m => simp only [step, hc]; exact nonEmpty_evo (F (.mkdir ..))
    | mknod p m d => simp only [step, hc]; exact nonEmpty_evo (F (.mknod ..))
    | link o n => simp only [step, hc]; exact nonEmpty_evo (nonEmpty_evo (S (.link ..)))
    | unlink p => simp only [step, hc]; exact nonEmpty_evo (S (.unlink ..))
    | rmdir p => simp only [step, hc]; exact nonEmpty_evo (S (.rmdir ..))
    | rename o n => simp only [step, hc]; exact nonEmpty_evo (nonEmpty_evo (S (.rename ..)))
    | chmod p m => simp only [step, hc]; exact S (.chmod ..)
    | fchmod fd m =>
      simp only [step, hc, fchmod]
      repeat' split
      all_goals first | exact R | exact S (.chmodIno ..)
    | stat p => simp only [step, hc]; exact R
    | fstat fd => simp only [step, hc]; exact R
    | access p m => simp only [step, hc]; exact R
    | chdir p => simp only [step, hc, chdir]; repeat' split
                 all_goals exact R
    | fchdir fd => simp only [step, hc, fchdir]; repeat' split
                   all_goals exact R
    | truncate p len =>
      generalize hT : Touch s c (.truncate p len) = T at *
      simp only [step, hc, State.onFs, Fs.truncate]
      split
      · exact R
      · exact R
      · rename_i i par hw
        refine (Evo.truncIno s.fs i len false).mono ?_
        rintro j ⟨rfl, h⟩
        rw [← hT]
        refine ⟨⟨0, ?_⟩, cg, hc, par, hw⟩
        simp only [step, hc, State.onFs, Fs.truncate, hw, h, Out.r]
    | ftruncate fd len =>
      generalize hT : Touch s c (.ftruncate fd len) = T at *
      simp only [step, hc, ftruncate]
      split
      · exact R
      · exact R
      · rename_i i pos f hg
        split
        · exact R
        · rename_i hr
          refine (Evo.truncIno s.fs i len true).mono ?_
          rintro j ⟨rfl, h⟩
          rw [← hT]
          refine ⟨⟨0, ?_⟩, cg, hc, pos, f, hg, by simpa using hr⟩
          simp only [step, hc, ftruncate, hg, if_neg hr, State.onFs, h, Out.r]
      · exact R
    | read fd n =>
      simp only [step, hc, read]
      repeat' split
      all_goals first | exact R | (rw [setFd_fs']; exact R)
    | pread fd n off =>
      simp only [step, hc, pread]
      repeat' split
      all_goals exact R
    | write fd data =>
      generalize hT : Touch s c (.write fd data) = T at *
      simp only [step, hc, write]
      split
      · exact R
      · exact R
      · rename_i d hg
        cases d with
        | file i pos f =>
          simp only
          split
          · exact R
          · rename_i hr
            split
            · exact R
            · rename_i nd hnd
              split
              · exact R
              · rename_i hk
                split
                · exact R
                · rename_i fs' hw
                  rw [setFd_fs']
                  refine (Evo.writeIno hnd hw).mono ?_
                  rintro j rfl
                  rw [← hT]
                  refine ⟨⟨toI32 data.length, ?_⟩, cg, hc, pos, f, hg, by simpa using hr⟩
                  simp only [step, hc, write, hg, if_neg hr, hnd, hk, hw, Out.r]
              · exact R
              · exact R
        | _ => simp only; repeat' split
               all_goals exact R
    | pwrite fd data off =>
      generalize hT : Touch s c (.pwrite fd data off) = T at *
      simp only [step, hc, pwrite]
      split
      · exact R
      · exact R
      · rename_i d hg
        cases d with
        | file i pos f =>
          simp only
          split
          · exact R
          · rename_i hr
            split
            · exact R
            · rename_i nd hnd
              split
              · exact R
              · rename_i hk
                split
                · exact R
                · rename_i hoff
                  split
                  · exact R
                  · rename_i fs' hw
                    refine (Evo.writeIno hnd hw).mono ?_
                    rintro j rfl
                    rw [← hT]
                    refine ⟨⟨toI32 data.length, ?_⟩, cg, hc, pos, f, hg, by simpa using hr⟩
                    simp only [step, hc, pwrite, hg, if_neg hr, hnd, hk, if_neg hoff, hw, Out.r]
              · exact R
              · exact R
        | _ => simp only; exact R
    | writev fd iovs =>
      generalize hT : Touch s c (.writev fd iovs) = T at *
      simp only [step, hc, writev]
      split
      · exact R
      · exact R
      · rename_i d hg
        cases d with
        | file i pos f =>
          simp only
          split
          · exact R
          · rename_i hr
            split
            · exact R
            · rename_i nd hnd
              split
              · exact R
              · rename_i hk
                split
                · exact R
                · rename_i fs' hw
                  rw [setFd_fs']
                  refine (Evo.writeIno hnd hw).mono ?_
                  rintro j rfl
                  rw [← hT]
                  refine ⟨⟨toI32 iovs.flatten.length, ?_⟩, cg, hc, pos, f, hg, by simpa using hr⟩
                  simp only [step, hc, writev, hg, if_neg hr, hnd, hk, hw, Out.r]
              · exact R
              · exact R
        | _ => simp only; repeat' split
               all_goals exact R
    | lseek fd off w =>
      simp only [step, hc, lseek]
      repeat' split
      all_goals first | exact R | (rw [setFd_fs']; exact R)
    | getdents fd b =>
      simp only [step, hc, getdents]
      repeat' split
      all_goals first | exact R | (rw [setFd_fs']; exact R)
    | dup fd =>
      simp only [step, hc, dup]
      repeat' split
      all_goals first | exact R | exact S (.dupFrom ..)
    | dup2 o n =>
      simp only [step, hc, dup2]
      repeat' split
      all_goals first
        | exact R
        | exact S (.drop ..)
        | exact S (.putCopy ..)
        | exact S ((Sub.drop ..).trans (.putCopy ..))
    | close fd =>
      simp only [step, hc, close]
      split
      · exact R
      · exact S (.closeSlot ..)
    | fcntl fd cmd arg =>
      simp only [step, hc, fcntl]
      repeat' split
      all_goals first | exact R | (rw [setFd_fs']; exact R) | exact S (.dupFrom ..)
    | pipe2 fl =>
      simp only [step, hc, pipe2]
      repeat' split
      all_goals first | exact R | (rw [setFd_fs']; exact R) | (rw [setFd_fs', setFd_fs']; exact R)
    | socket a b =>
      simp only [step, hc, putNew]
      repeat' split
      all_goals first | exact R | (rw [setFd_fs']; exact R)
    | epollCreate n =>
      simp only [step, hc, putNew]
      repeat' split
      all_goals first | exact R | (rw [setFd_fs']; exact R)
    | fork ch =>
      simp only [step, hc, fork]
      split
      · exact R
      · split
        · exact R
        · rename_i s1 h1
          have h2 := Sub.forkCopy h1
          simp only [State.setCage] at h2
          repeat' split
          all_goals first | exact R | exact S (h2.trans (.set ‹_› ..))
    | exec ch =>
      simp only [step, hc, exec]
      have h2 := Sub.closeWhere (fun d => d.flags &&& oCLOEXEC != 0) c maxFd s
      by_cases hm : ch ≥ maxCage
      · rw [if_pos hm]; exact R
      · rw [if_neg hm]
        generalize maxFd = k at h2 ⊢
        split <;> rename_i e <;> rw [e] at h2
        · exact S h2
        · split
          · exact S h2
          · simp only [State.setCage]; exact S h2
    | exit st =>
      have h2 := Sub.exit s c st
      simp only [step, hc]
      exact S h2

end Verif.Kernel
