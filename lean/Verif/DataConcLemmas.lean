import Verif.DataConcSpec
import Verif.FsLemmas

/-!
# Lemmas on concurrent calls on open files

The effects of a call under the inode's lock, taken together, are the call of the sequential model.
-/

namespace Verif.DataConc
open Verif.Fs Verif.Kernel

/-! ## Slots and files -/

theorem SameButLog.refl (s : State) : SameButLog s s := rfl

theorem setFile_self (s : State) (i : Nat) : setFile s i (file s i) = s := by
  simp [setFile, file, upd_self]

theorem setFd_self (s : State) (c fd : Nat) : s.setFd c fd (slot s c fd) = s := by
  unfold State.setFd slot
  cases h : s.cages c with
  | none => rfl
  | some cg =>
    simp only [Option.bind_some, upd_self, State.setCage]
    have : upd s.cages c (some cg) = s.cages := by rw [← h]; exact upd_self _ _
    simp [this]

theorem put_self (s : State) (c fd i : Nat) : (setFile s i (file s i)).setFd c fd (slot s c fd) = s := by
  rw [setFile_self, setFd_self]

theorem setFd_fs' (s : State) (c fd : Nat) (d : Option Desc) : (s.setFd c fd d).fs = s.fs := by
  unfold State.setFd
  split <;> rfl

theorem file_setFd (s : State) (c fd i : Nat) (d : Option Desc) : file (s.setFd c fd d) i = file s i := by
  simp [file, setFd_fs']

theorem slot_setFile (s : State) (c fd i : Nat) (F : File) : slot (setFile s i F) c fd = slot s c fd := rfl

theorem file_setFile (s : State) (i : Nat) (F : File) (k : Nat) : file (setFile s i F) k = if k = i then F else file s k := by
  by_cases h : k = i
  · subst h; simp [file, setFile, upd_same]
  · simp [file, setFile, h, upd_ne]

theorem slot_setFd (s : State) (c fd : Nat) (d : Option Desc) (c' fd' : Nat) (h : (s.cages c).isSome) :
    slot (s.setFd c fd d) c' fd' = if c' = c ∧ fd' = fd then d else slot s c' fd' := by
  unfold State.setFd slot
  cases hc : s.cages c with
  | none => simp [hc] at h
  | some cg =>
    by_cases e : c' = c
    · subst e
      by_cases e' : fd' = fd
      · subst e'; simp [State.setCage, upd_same]
      · simp [State.setCage, upd_same, e', upd_ne, hc]
    · simp [State.setCage, e, upd_ne]

theorem SameButLog.file {a b : State} (h : SameButLog a b) (i : Nat) : file a i = file b i := by
  have := congrArg (fun s => DataConc.file s i) h
  exact this

theorem SameButLog.slot {a b : State} (h : SameButLog a b) (c fd : Nat) : slot a c fd = slot b c fd := by
  have := congrArg (fun s => DataConc.slot s c fd) h
  exact this

/-- Everything but the slots, the files and the log. -/
def frame (s : State) : State :=
  { s with cages := fun c => (s.cages c).map (fun cg => { cg with fds := fun _ => none })
           fs := { s.fs with inodes := fun _ => none, fobj := fun _ => none, disk := fun _ => none, log := [] } }

theorem SameButLog.frame {a b : State} (h : SameButLog a b) : frame a = frame b := by
  have := congrArg DataConc.frame h
  exact this

theorem frame_setFile (s : State) (i : Nat) (F : File) : frame (setFile s i F) = frame s := rfl

theorem frame_setFd (s : State) (c fd : Nat) (d : Option Desc) : frame (s.setFd c fd d) = frame s := by
  unfold State.setFd
  cases hc : s.cages c with
  | none => rfl
  | some cg =>
    simp only [frame, State.setCage]
    congr 1
    funext c'
    by_cases e : c' = c
    · subst e; simp [upd_same, hc]
    · simp [e, upd_ne]

theorem frame_cage {a b : State} (h : frame a = frame b) (c : Nat) : (a.cages c).isSome = (b.cages c).isSome := by
  have := congrArg (fun s => (s.cages c).isSome) h
  simpa [frame] using this

/-- The frame, the slots and the files are the whole state but for the log. -/
theorem same_of {a b : State} (hf : frame a = frame b) (hs : ∀ c fd, slot a c fd = slot b c fd)
    (hi : ∀ i, file a i = file b i) : SameButLog a b := by
  obtain ⟨⟨ai, an, ao, ad, al, am⟩, ac, ap, aq⟩ := a
  obtain ⟨⟨bi, bn, bo, bd, bl, bm⟩, bc, bp, bq⟩ := b
  simp only [frame, State.mk.injEq, Fs.mk.injEq] at hf
  obtain ⟨⟨-, h1, -, -, -, h2⟩, h3, h4, h5⟩ := hf
  simp only [file, File.mk.injEq] at hi
  simp only [SameButLog, State.mk.injEq, Fs.mk.injEq]
  refine ⟨⟨funext fun i => (hi i).1, h1, funext fun i => (hi i).2.1, funext fun i => (hi i).2.2, trivial, h2⟩, ?_, h4, h5⟩
  funext c
  have e := congrFun h3 c
  have e' := hs c
  simp only [slot] at e'
  cases h : ac c with
  | none =>
    cases h' : bc c with
    | none => rfl
    | some y => simp [h, h'] at e
  | some x =>
    cases h' : bc c with
    | none => simp [h, h'] at e
    | some y =>
      simp only [h, h', Option.map_some, Option.some.injEq, Cage.mk.injEq] at e
      simp only [h, h', Option.bind_some] at e'
      obtain ⟨xf, xc, xp⟩ := x
      obtain ⟨yf, yc, yp⟩ := y
      simp only at e e'
      rw [e.2.1, e.2.2, funext e']

/-! ## The effects -/

/-- The effects of a call from `b` on, and what they lead to. -/
inductive Completes (call : Call) (i pos : Nat) (f : BitVec 32) : Body → Option Desc → File → Option Desc → File → Out → Prop
  | over (o : Out) (l : Bool) (d : Option Desc) (F : File) : Completes call i pos f (.over o l) d F d F o
  | next {b : Body} {d : Option Desc} {F : File} {d' : Option Desc} {F' : File} {o : Out} : (∀ o l, b ≠ .over o l) →
      Completes call i pos f (effect call i pos f b d F).2.2 (effect call i pos f b d F).1 (effect call i pos f b d F).2.1 d' F' o →
      Completes call i pos f b d F d' F' o

theorem Completes.effect {call : Call} {i pos : Nat} {f : BitVec 32} {b : Body} {d d' : Option Desc} {F F' : File} {o : Out}
    (h : Completes call i pos f b d F d' F' o) (hb : ∀ o l, b ≠ .over o l) :
    Completes call i pos f (effect call i pos f b d F).2.2 (effect call i pos f b d F).1 (effect call i pos f b d F).2.1 d' F' o := by
  cases h with
  | over o l => exact absurd rfl (hb _ _)
  | next _ h => exact h

theorem Completes.done {call : Call} {i pos : Nat} {f : BitVec 32} {l : Bool} {d d' : Option Desc} {F F' : File} {o o' : Out}
    (h : Completes call i pos f (.over o l) d F d' F' o') : d' = d ∧ F' = F ∧ o' = o := by
  cases h with
  | over => exact ⟨rfl, rfl, rfl⟩
  | next hb _ => exact absurd rfl (hb _ _)

/-- A step to the end. -/
theorem Completes.last {call : Call} {i pos : Nat} {f : BitVec 32} {b : Body} {d d' : Option Desc} {F F' : File} {o : Out} {l : Bool}
    (hb : ∀ o l, b ≠ .over o l) (h : DataConc.effect call i pos f b d F = (d', F', .over o l)) : Completes call i pos f b d F d' F' o := by
  refine .next hb ?_
  rw [h]
  exact .over _ _ _ _

/-- A step that is not the end. -/
theorem Completes.more {call : Call} {i pos : Nat} {f : BitVec 32} {b b1 : Body} {d d' d1 : Option Desc} {F F' F1 : File} {o : Out}
    (hb : ∀ o l, b ≠ .over o l) (h : DataConc.effect call i pos f b d F = (d1, F1, b1))
    (h' : Completes call i pos f b1 d1 F1 d' F' o) : Completes call i pos f b d F d' F' o := by
  refine .next hb ?_
  rw [h]
  exact h'

/-- Where a body belongs to a call: the effects of writing are not met in reading calls, and so on. -/
def Fits : Call → Body → Prop
  | _, .start => True
  | _, .over _ _ => True
  | .read _, .got _ => True
  | .write _, b | .writev _, b | .pwrite _ _, b => match b with
    | .filled _ _ | .wrote _ _ | .placed _ _ => True
    | _ => False
  | .ftruncate _, .cut _ => True
  | _, _ => False

theorem fits_fill (F : File) (nd : Inode) (off : Nat) (data : List UInt8) :
    (∃ o l, (fillGap F nd off data).2 = .over o l) ∨ ∃ o d, (fillGap F nd off data).2 = .filled o d := by
  unfold fillGap
  repeat' split
  all_goals simp

theorem fits_effect {call : Call} {i pos : Nat} {f : BitVec 32} {b : Body} {d : Option Desc} {F : File} (h : Fits call b) :
    Fits call (effect call i pos f b d F).2.2 := by
  cases b with
  | start =>
    simp only [effect, begin]
    cases F.ino with
    | none => cases call <;> trivial
    | some nd =>
      simp only
      have h4 := fits_fill F nd
      cases call <;> cases hk : nd.kind <;> simp only <;> (repeat' split) <;> simp only [Fits] <;>
        first
        | trivial
        | (rcases h4 _ _ with ⟨o, l, e⟩ | ⟨o, l, e⟩ <;> rw [e] <;> trivial)
  | got bs => cases call <;> first | trivial | cases h
  | filled off data =>
    simp only [effect]
    split <;> cases call <;> first | trivial | cases h
  | wrote off data => cases call <;> first | trivial | cases h
  | placed off data =>
    simp only [effect]
    repeat' split
    all_goals cases call <;> first | trivial | cases h
  | cut n =>
    simp only [effect]
    split <;> cases call <;> first | trivial | cases h
  | over o l => exact h

/-- A call that holds the descriptor for reading does not change it. -/
theorem slot_kept {call : Call} {i pos : Nat} {f : BitVec 32} {b : Body} {d : Option Desc} {F : File} (h : Fits call b)
    (hx : call.slotEx = false) : (effect call i pos f b d F).1 = d := by
  cases b with
  | start =>
    simp only [effect, begin]
    cases F.ino with
    | none => rfl
    | some nd =>
      simp only
      cases call <;> simp only [Call.slotEx] at hx <;> first | cases hx | skip
      all_goals (cases hk : nd.kind <;> simp only <;> (repeat' split) <;> rfl)
  | got bs => cases call <;> first | (cases hx; done) | (cases h; done)
  | filled off data => cases call <;> first | (cases hx; done) | (cases h; done)
  | wrote off data => cases call <;> first | (cases hx; done) | (cases h; done)
  | placed off data => cases call <;> first | (cases hx; done) | (cases h; done)
  | cut n => simp only [effect]; split <;> rfl
  | over o l => rfl

/-- A call that holds the inode for reading does not change the file. -/
theorem file_kept {call : Call} {i pos : Nat} {f : BitVec 32} {b : Body} {d : Option Desc} {F : File} (h : Fits call b)
    (hx : call.inoEx = false) : (effect call i pos f b d F).2.1 = F := by
  cases b with
  | start =>
    simp only [effect, begin]
    cases F.ino with
    | none => rfl
    | some nd =>
      simp only
      cases call <;> simp only [Call.inoEx] at hx <;> first | cases hx | skip
      all_goals (cases hk : nd.kind <;> simp only <;> (repeat' split) <;> rfl)
  | got bs => rfl
  | filled off data => cases call <;> first | (cases hx; done) | (cases h; done)
  | wrote off data => cases call <;> first | (cases hx; done) | (cases h; done)
  | placed off data => cases call <;> first | (cases hx; done) | (cases h; done)
  | cut n => cases call <;> first | (cases hx; done) | (cases h; done)
  | over o l => rfl

theorem Completes.kept {call : Call} {i pos : Nat} {f : BitVec 32} {b : Body} {d d' : Option Desc} {F F' : File} {o : Out}
    (h : Completes call i pos f b d F d' F' o) (hf : Fits call b) :
    (call.slotEx = false → d' = d) ∧ (call.inoEx = false → F' = F) := by
  induction h with
  | over => exact ⟨fun _ => rfl, fun _ => rfl⟩
  | next _ _ ih =>
    have := ih (fits_effect hf)
    exact ⟨fun hx => (this.1 hx).trans (slot_kept hf hx), fun hx => (this.2 hx).trans (file_kept hf hx)⟩

end Verif.DataConc
