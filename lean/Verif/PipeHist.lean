import Verif.KernelStep
import Verif.UnixSockLemmas

/-!
# C01 over histories of system calls

`PipeProps` treats one pipe under every interleaving of its readers and writers.  Here the pipe is
one object of the whole system: any number of cages, descriptors copied by dup, dup2, fcntl, fork
and exec, closed by close, exec and exit, and any other calls in between.  Each call is taken as
a whole.
-/

set_option linter.unusedSimpArgs false

namespace Verif.Kernel
open Verif.Path Verif.Fs
open Verif.Pipe (Pipe End)

/-! ## Specification -/

/-- Descriptor `fd` of cage `c` designates pipe `id`. -/
def OnPipe (s : State) (c : Nat) (fd : Int) (id : Nat) : Prop :=
  ∃ cg f, s.cages c = some cg ∧ getFd cg.fds fd = some (some (.pipe id f))

/-- What the result of a read of `n` bytes says about the bytes `bs` it delivered. -/
def Got (n : Nat) (bs : List UInt8) (r : Ret) : Prop :=
  (∃ v : Nat, r = .ok v ∧ v ≤ n ∧ bs.length = v) ∨ (((∃ e, r = .err e) ∨ r = .blocked) ∧ bs = [])

/-- The bytes a call took out of pipe `id`: those a `read` on it stored in its buffer. -/
def Takes (id : Nat) (s : State) (c : Nat) (op : Op) (bs : List UInt8) : Prop :=
  match op with
  | .read fd n => (OnPipe s c fd id ∧ bs = (step s c op).2.data ∧ Got n bs (step s c op).2.ret) ∨
      (¬ OnPipe s c fd id ∧ bs = [])
  | _ => bs = []

/-- What the result of a write says about the bytes `bs` of `data` it put in: result `v` means the
first `v` bytes, an error means none; a call that has not returned may have put in any prefix. -/
def Put (data bs : List UInt8) (r : Ret) : Prop :=
  (∃ v : Nat, r = .ok v ∧ v ≤ data.length ∧ bs = data.take v) ∨
  ((∃ e, r = .err e) ∧ bs = []) ∨
  (r = .blocked ∧ ∃ k, bs = data.take k)

/-- The bytes a call put into pipe `id`. -/
def Gives (id : Nat) (s : State) (c : Nat) (op : Op) (bs : List UInt8) : Prop :=
  match op with
  | .write fd data => (OnPipe s c fd id ∧ Put data bs (step s c op).2.ret) ∨
      (¬ OnPipe s c fd id ∧ bs = [])
  | .writev fd iovs => (OnPipe s c fd id ∧ Put iovs.flatten bs (step s c op).2.ret) ∨
      (¬ OnPipe s c fd id ∧ bs = [])
  | _ => bs = []

/-- What a whole history took out of and put into pipe `id`, call by call. -/
inductive Moves (id : Nat) : State → List (Nat × Op) → List UInt8 → List UInt8 → Prop
  | nil (s : State) : Moves id s [] [] []
  | cons {s : State} {c : Nat} {op : Op} {h : List (Nat × Op)} {t g T G : List UInt8}
      (ht : Takes id s c op t) (hg : Gives id s c op g) (hm : Moves id (step s c op).1 h T G) :
      Moves id s ((c, op) :: h) (t ++ T) (g ++ G)

/-! ## Lemmas -/

/-- Pipes have been made with numbers below the counter only. -/
def Fresh (s : State) : Prop := ∀ id, s.npipe ≤ id → s.pipes id = none

/-- Every pipe keeps its content. -/
structure Bufs (s s' : State) : Prop where
  fresh : Fresh s → Fresh s'
  keep : ∀ id p, s.pipes id = some p →
    ∃ p', s'.pipes id = some p' ∧ p'.buf = p.buf ∧ p'.cap = p.cap
  grow : ∀ id p', s'.pipes id = some p' → s.pipes id = none → p'.buf = [] ∧ p'.cap = Pipe.pipeCapacity

theorem Bufs.refl (s : State) : Bufs s s := ⟨id, fun _ p h => ⟨p, h, rfl, rfl⟩, fun _ p h h' => by rw [h] at h'; cases h'⟩

theorem Bufs.of_eq {s s' : State} (h : s'.pipes = s.pipes) (hn : s'.npipe = s.npipe) : Bufs s s' :=
  ⟨fun hf => by unfold Fresh; rw [h, hn]; exact hf, fun _ p hp => ⟨p, by rw [h]; exact hp, rfl, rfl⟩,
    fun _ p hp h' => by rw [h, h'] at hp; cases hp⟩

theorem Bufs.trans {a b c : State} (h1 : Bufs a b) (h2 : Bufs b c) : Bufs a c := by
  refine ⟨fun hf => h2.fresh (h1.fresh hf), fun id p hp => ?_, fun id p' hp hn => ?_⟩
  · obtain ⟨p1, e1, b1, c1⟩ := h1.keep id p hp
    obtain ⟨p2, e2, b2, c2⟩ := h2.keep id p1 e1
    exact ⟨p2, e2, b2.trans b1, c2.trans c1⟩
  · cases hb : b.pipes id with
    | none => exact h2.grow id p' hp hb
    | some p1 =>
      obtain ⟨p2, e2, b2, c2⟩ := h2.keep id p1 hb
      have := h1.grow id p1 hb hn
      rw [hp] at e2; cases e2
      exact ⟨b2.trans this.1, c2.trans this.2⟩

theorem Bufs.eqR {a b c : State} (h : Bufs a b) (e : c.pipes = b.pipes) (n : c.npipe = b.npipe) :
    Bufs a c := h.trans (.of_eq e n)

theorem Bufs.eqL {a b c : State} (h : Bufs a b) (e : a.pipes = c.pipes) (n : a.npipe = c.npipe) :
    Bufs c b := (Bufs.of_eq e n).trans h

theorem setFd_pipes' (s : State) (c fd : Nat) (o : Option Desc) : (s.setFd c fd o).pipes = s.pipes := by
  simp only [State.setFd]; split <;> rfl

theorem setFd_npipe' (s : State) (c fd : Nat) (o : Option Desc) : (s.setFd c fd o).npipe = s.npipe := by
  simp only [State.setFd]; split <;> rfl

theorem incrPipe_buf (p : Pipe) (f : BitVec 32) :
    (incrPipe p f).buf = p.buf ∧ (incrPipe p f).cap = p.cap := by
  unfold incrPipe; cases endOf f with
  | none => exact ⟨rfl, rfl⟩
  | some e => cases e <;> exact ⟨rfl, rfl⟩

theorem decrPipe_buf (p : Pipe) (f : BitVec 32) :
    (decrPipe p f).buf = p.buf ∧ (decrPipe p f).cap = p.cap := by
  unfold decrPipe; cases endOf f with
  | none => exact ⟨rfl, rfl⟩
  | some e => cases e <;> exact ⟨rfl, rfl⟩

theorem Bufs.set {s : State} {id : Nat} {p q : Pipe} (hp : s.pipes id = some p)
    (hq : q.buf = p.buf ∧ q.cap = p.cap) : Bufs s { s with pipes := upd s.pipes id (some q) } := by
  refine ⟨fun hf i hi => ?_, fun i x hx => ?_, fun i x hx hn => ?_⟩
  · have : i ≠ id := by rintro rfl; rw [hf i hi] at hp; cases hp
    simp only [upd_ne _ _ this]; exact hf i hi
  · by_cases hi : i = id
    · subst hi
      rw [hp] at hx; cases hx
      exact ⟨q, upd_same .., hq.1, hq.2⟩
    · exact ⟨x, by simp only [upd_ne _ _ hi]; exact hx, rfl, rfl⟩
  · have : i ≠ id := by rintro rfl; rw [hn] at hp; cases hp
    simp only [upd_ne _ _ this, hn] at hx; cases hx

theorem Bufs.bump {s s' : State} {d : Desc} (h : s.bump d = some s') : Bufs s s' := by
  cases d <;> simp only [State.bump] at h
  · split at h
    · cases h
    · cases h; exact .of_eq rfl rfl
  · split at h
    · cases h
    · rename_i hp; cases h; exact .set hp (incrPipe_buf ..)
  all_goals cases h; exact .refl _

theorem Bufs.drop (s : State) (d : Desc) : Bufs s (s.drop d).1 := by
  cases d <;> simp only [State.drop]
  · exact .of_eq rfl rfl
  · split
    · exact .refl _
    · rename_i hp; exact .set hp (decrPipe_buf ..)
  all_goals exact .refl _

theorem Bufs.setFd {s s' : State} (h : Bufs s s') (c fd : Nat) (o : Option Desc) :
    Bufs s (s'.setFd c fd o) := h.trans (.of_eq (setFd_pipes' ..) (setFd_npipe' ..))

theorem Bufs.closeSlot (s : State) (c fd : Nat) (o : Option Desc) : Bufs s (s.closeSlot c fd o).1 := by
  simp only [State.closeSlot]
  split
  · exact .refl _
  · rename_i d
    have h := Bufs.drop s d
    split <;> rename_i e <;> rw [e] at h
    · exact h.setFd ..
    · exact h

theorem Bufs.putCopy (s : State) (c : Nat) (d : Desc) (n : Nat) : Bufs s (s.putCopy c d n).1 := by
  simp only [State.putCopy]
  split
  · exact .refl _
  · exact (Bufs.bump ‹_›).setFd ..

theorem Bufs.dupFrom (s : State) (c : Nat) (cg : Cage) (d : Desc) (n : Nat) :
    Bufs s (dupFrom s c cg d n).1 := by
  simp only [Kernel.dupFrom]
  repeat' split
  all_goals first | exact .refl _ | exact .putCopy ..

theorem Bufs.closeWhere (sel : Desc → Bool) (c : Nat) (k : Nat) (s : State) :
    Bufs s (closeWhere sel c k s).1 := by
  induction k with
  | zero => exact .refl _
  | succ k ih =>
    simp only [Kernel.closeWhere]
    split <;> rename_i e <;> rw [e] at ih
    · exact ih
    · repeat' split
      all_goals first | exact ih | exact ih.trans (.closeSlot ..)

theorem Bufs.forkCopy {t : Table} {ch k : Nat} {s s' : State} (h : forkCopy t ch k s = some s') :
    Bufs s s' := by
  induction k generalizing s' with
  | zero => cases h; exact .refl _
  | succ k ih =>
    simp only [Kernel.forkCopy] at h
    split at h
    · cases h
    · rename_i s1 e
      split at h
      · cases h; exact ih e
      · split at h
        · cases h
        · cases h
          exact ((ih e).trans (.bump ‹_›)).setFd ..

theorem Bufs.exit (s : State) (c : Nat) (st : Int) : Bufs s (exit s c st).1 := by
  have h2 := Bufs.closeWhere (fun _ => true) c maxFd s
  unfold Kernel.exit
  generalize Kernel.closeWhere (fun _ => true) c maxFd s = x at h2 ⊢
  obtain ⟨s', r⟩ := x
  cases r <;> exact h2.eqR rfl rfl

theorem Bufs.nonEmpty {p : Str} {s : State} {r : State × Out} (h : Bufs s r.1) :
    Bufs s (nonEmpty p s r).1 := by
  simp only [Kernel.nonEmpty]; split
  · exact .refl _
  · exact h

/-- Calls that move bytes through a pipe. -/
def Op.moves : Op → Bool
  | .read .. => true
  | .write .. => true
  | .writev .. => true
  | _ => false

theorem step_bufs {s : State} (hn : Fresh s) (c : Nat) (op : Op)
    (ho : op.moves = false) : Bufs s (step s c op).1 := by
  cases hc : s.cages c with
  | none => simp only [step, hc]; exact .refl _
  | some cg =>
    have R : ∀ {b : State}, b.pipes = s.pipes → b.npipe = s.npipe → Bufs s b := .of_eq
    cases op with
    | openP p flags mode =>
      simp only [step, hc, openSys]
      repeat' split
      all_goals first | exact R rfl rfl | (exact R (setFd_pipes' ..) (setFd_npipe' ..))
    | mkdir p m => simp only [step, hc]; exact .nonEmpty (R rfl rfl)
    | mknod p m d => simp only [step, hc]; exact .nonEmpty (R rfl rfl)
    | link o n => simp only [step, hc]; exact .nonEmpty (.nonEmpty (R rfl rfl))
    | unlink p => simp only [step, hc]; exact .nonEmpty (R rfl rfl)
    | rmdir p => simp only [step, hc]; exact .nonEmpty (R rfl rfl)
    | rename o n => simp only [step, hc]; exact .nonEmpty (.nonEmpty (R rfl rfl))
    | chmod p m => simp only [step, hc]; exact R rfl rfl
    | fchmod fd m => simp only [step, hc, fchmod]; repeat' split
                     all_goals exact R rfl rfl
    | stat p => simp only [step, hc]; exact R rfl rfl
    | fstat fd => simp only [step, hc]; exact R rfl rfl
    | access p m => simp only [step, hc]; exact R rfl rfl
    | chdir p => simp only [step, hc, chdir]; repeat' split
                 all_goals exact R rfl rfl
    | fchdir fd => simp only [step, hc, fchdir]; repeat' split
                   all_goals exact R rfl rfl
    | truncate p len => simp only [step, hc]; exact R rfl rfl
    | ftruncate fd len => simp only [step, hc, ftruncate]; repeat' split
                          all_goals exact R rfl rfl
    | read fd n => cases ho
    | pread fd n off => simp only [step, hc, pread]; repeat' split
                        all_goals exact R rfl rfl
    | write fd data => cases ho
    | pwrite fd data off => simp only [step, hc, pwrite]; repeat' split
                            all_goals exact R rfl rfl
    | writev fd iovs => cases ho
    | lseek fd off wh =>
      simp only [step, hc, lseek]; repeat' split
      all_goals first | exact R rfl rfl | (exact R (setFd_pipes' ..) (setFd_npipe' ..))
    | getdents fd b =>
      simp only [step, hc, getdents]; repeat' split
      all_goals first | exact R rfl rfl | (exact R (setFd_pipes' ..) (setFd_npipe' ..))
    | dup fd =>
      simp only [step, hc, dup]; repeat' split
      all_goals first | exact R rfl rfl | exact .dupFrom ..
    | dup2 o n =>
      simp only [step, hc, dup2]
      repeat' split
      all_goals first
        | exact R rfl rfl
        | exact .drop ..
        | exact .putCopy ..
        | exact Bufs.trans (.drop ..) (.putCopy ..)
    | close fd =>
      simp only [step, hc, close]; repeat' split
      all_goals first | exact R rfl rfl | exact .closeSlot ..
    | fcntl fd cmd arg =>
      simp only [step, hc, fcntl]; repeat' split
      all_goals first | exact R rfl rfl | exact R (setFd_pipes' ..) (setFd_npipe' ..) | exact .dupFrom ..
    | pipe2 fl =>
      have hp : Bufs s { s with pipes := upd s.pipes s.npipe (some (Pipe.new Pipe.pipeCapacity)),
                                npipe := s.npipe + 1 } := by
        refine ⟨fun _ id hid => ?_, fun id p hid => ?_, fun id p hid hn => ?_⟩
        · have hid' : s.npipe + 1 ≤ id := hid
          simp only [upd_ne _ _ (by omega : id ≠ s.npipe)]
          exact hn id (by omega)
        · have : id ≠ s.npipe := by rintro rfl; rw [hn _ (Nat.le_refl _)] at hid; cases hid
          exact ⟨p, by simp only [upd_ne _ _ this]; exact hid, rfl, rfl⟩
        · simp only [upd_apply, hn] at hid
          split at hid
          · cases hid; exact ⟨rfl, rfl⟩
          · cases hid
      simp only [step, hc, pipe2]; repeat' split
      · exact R rfl rfl
      · exact hp.setFd ..
      · exact (hp.setFd ..).setFd ..
    | socket nb ce =>
      simp only [step, hc, putNew]; repeat' split
      all_goals first | exact R rfl rfl | exact R (setFd_pipes' ..) (setFd_npipe' ..)
    | epollCreate n =>
      simp only [step, hc, putNew]; repeat' split
      all_goals first | exact R rfl rfl | exact R (setFd_pipes' ..) (setFd_npipe' ..)
    | fork ch =>
      simp only [step, hc, fork]
      split
      · exact R rfl rfl
      · split
        · exact R rfl rfl
        · rename_i s1 e
          have hf := Bufs.forkCopy e
          have hf' : Bufs s s1 := hf.eqL rfl rfl
          repeat' split
          all_goals first | exact R rfl rfl | exact hf'.eqR rfl rfl
    | exec ch =>
      have h2 := Bufs.closeWhere (fun d => d.flags &&& oCLOEXEC != 0) c maxFd s
      simp only [step, hc, exec]
      generalize Kernel.closeWhere (fun d => d.flags &&& oCLOEXEC != 0) c maxFd s = x at h2 ⊢
      obtain ⟨s', r⟩ := x
      repeat' split
      all_goals first | exact R rfl rfl | (rename_i e; cases e; exact h2) |
        (rename_i e _ _; cases e; exact h2.eqR rfl rfl) | (rename_i e _ _ _; cases e; exact h2.eqR rfl rfl) |
        exact h2
    | exit st =>
      have h2 := Bufs.exit s c st
      simp only [step, hc]; exact h2

theorem writevLoop_norefs (nb : Bool) (iovs : List (List UInt8)) :
    ∀ (p : Pipe) (tot : Nat),
      (p.rref = 0 → (Pipe.writevLoop nb iovs p tot).1 = p) ∧
      (p.rref ≠ 0 → (Pipe.writevLoop nb iovs p tot).2 ≠ .err .EPIPE) := by
  induction iovs with
  | nil => intro p tot; exact ⟨fun _ => rfl, fun _ => by simp [Pipe.writevLoop]⟩
  | cons iov rest ih =>
    intro p tot
    obtain ⟨k, hk, h1, h2⟩ := Pipe.writeNow_any p iov nb
    have hrr : (p.writeNow iov nb).1.rref = p.rref := by rw [h1]
    by_cases h0 : iov = []
    · subst h0
      have e : p.writeNow [] nb = (p, .ok 0) := by simp [Pipe.Pipe.writeNow]
      unfold Pipe.writevLoop; rw [e]
      exact ih p _
    · have hep := Pipe.writeNow_epipe p iov nb h0
      constructor
      · intro hr
        have e2 := hep.2 hr
        have hk0 : k = 0 := by
          rw [e2] at h2
          rcases h2 with h | h | h
          · cases h
          · exact h.2
          · cases h
        have e1 : (p.writeNow iov nb).1 = p := by rw [h1, hk0]; simp
        have e : p.writeNow iov nb = (p, .err .EPIPE) := Prod.ext e1 e2
        unfold Pipe.writevLoop; rw [e]
      · intro hr hx
        unfold Pipe.writevLoop at hx
        generalize hw : p.writeNow iov nb = w at hx hrr hep
        obtain ⟨p', r⟩ := w
        cases r with
        | ok v => exact (ih p' _).2 (by simp only at hrr; omega) hx
        | err e =>
          cases e <;> simp only at hx <;> first | exact hr (hep.1 rfl) | (split at hx <;> simp at hx) | (simp at hx)
        | panic => simp at hx
        | blocked => simp at hx

theorem put_write (p : Pipe) (data : List UInt8) (nb : Bool) :
    ∃ bs, Put data bs (p.writeNow data nb).2 ∧
      (p.writeNow data nb).1 = { p with buf := p.buf ++ bs } := by
  obtain ⟨k, hk, h1, h2⟩ := Pipe.writeNow_any p data nb
  refine ⟨data.take k, ?_, h1⟩
  rcases h2 with h | ⟨h | h, h0⟩ | h
  · exact .inl ⟨k, h, hk, rfl⟩
  · subst h0; exact .inr (.inl ⟨⟨_, h⟩, rfl⟩)
  · subst h0; exact .inr (.inl ⟨⟨_, h⟩, rfl⟩)
  · exact .inr (.inr ⟨h, k, rfl⟩)

theorem put_writev (p : Pipe) (iovs : List (List UInt8)) (nb : Bool) :
    ∃ bs, Put iovs.flatten bs (p.writevNow iovs nb).2 ∧
      (p.writevNow iovs nb).1 = { p with buf := p.buf ++ bs } := by
  obtain ⟨k, hk, h1, h2⟩ := Pipe.writevLoop_any nb iovs p 0
  simp only [Pipe.Pipe.writevNow]
  rcases h2 with h | ⟨h, h0⟩ | h | h
  · refine ⟨_, ?_, h1⟩
    rw [Nat.zero_add] at h
    exact .inl ⟨k, h, hk, rfl⟩
  · refine ⟨_, ?_, h1⟩
    subst h0; exact .inr (.inl ⟨⟨_, h⟩, rfl⟩)
  · refine ⟨[], .inr (.inl ⟨⟨_, h⟩, rfl⟩), ?_⟩
    have hn := writevLoop_norefs nb iovs p 0
    have hr : p.rref = 0 := Classical.byContradiction fun hr => hn.2 hr h
    rw [hn.1 hr]; simp
  · exact ⟨_, .inr (.inr ⟨h, k, rfl⟩), h1⟩

/-- One call: what it takes and what it gives account for the change of the buffer. -/
theorem step_moves {s : State} (hf : Fresh s) (c : Nat) (op : Op) (id : Nat) (p : Pipe)
    (hp : s.pipes id = some p) :
    Fresh (step s c op).1 ∧ ∃ t g p', Takes id s c op t ∧ Gives id s c op g ∧
      (step s c op).1.pipes id = some p' ∧ p'.cap = p.cap ∧ t ++ p'.buf = p.buf ++ g := by
  by_cases hm : op.moves = false
  · have hb := step_bufs hf c op hm
    obtain ⟨p', h1, h2, h3⟩ := hb.keep id p hp
    refine ⟨hb.fresh hf, [], [], p', ?_, ?_, h1, h3, by rw [h2]; simp⟩
    · cases op <;> first | rfl | cases hm
    · cases op <;> first | rfl | cases hm
  · cases hc : s.cages c with
    | none =>
      have e : (step s c op).1 = s := by simp only [step, hc]
      have no : ∀ fd, ¬ OnPipe s c fd id := by
        rintro fd ⟨cg, f, h, -⟩; rw [hc] at h; cases h
      rw [e]
      refine ⟨hf, [], [], p, ?_, ?_, hp, rfl, by simp⟩
      · cases op <;> first | exact .inr ⟨no _, rfl⟩ | rfl
      · cases op <;> first | exact .inr ⟨no _, rfl⟩ | rfl
    | some cg =>
      -- a call that is not on pipe `id` leaves it alone
      have other : ∀ (fd : Int), (∀ f, getFd cg.fds fd ≠ some (some (.pipe id f))) →
          ¬ OnPipe s c fd id := by
        rintro fd h ⟨cg', f, h1, h2⟩
        rw [hc] at h1; cases h1; exact h f h2
      have freshSet : ∀ {s' : State} {j : Nat} {q q' : Pipe}, s'.pipes = s.pipes →
          s'.npipe = s.npipe → s.pipes j = some q →
          Fresh { s' with pipes := upd s'.pipes j (some q') } := by
        intro s' j q q' e1 e2 hj i hi
        have hi' : s.npipe ≤ i := by rw [← e2]; exact hi
        have : i ≠ j := by rintro rfl; rw [hf i hi'] at hj; cases hj
        simp only [upd_ne _ _ this, e1]; exact hf i hi'
      have same : ∀ {s' : State}, s'.pipes = s.pipes → s'.npipe = s.npipe → Fresh s' := by
        intro s' e1 e2 i hi; rw [e1]; exact hf i (by rw [← e2]; exact hi)
      cases op with
      | read fd n =>
        by_cases ho : ∃ f, getFd cg.fds fd = some (some (.pipe id f))
        · obtain ⟨f, hg⟩ := ho
          have on : OnPipe s c fd id := ⟨cg, f, hc, hg⟩
          have hstep : (step s c (.read fd n)) = if isWronly f then (s, .r (.err .EBADF)) else
              ({ s with pipes := upd s.pipes id (some (p.readNow n (f &&& oNONBLOCK ≠ 0)).1) },
                { ret := (p.readNow n (f &&& oNONBLOCK ≠ 0)).2.1,
                  data := (p.readNow n (f &&& oNONBLOCK ≠ 0)).2.2 }) := by
            simp only [step, hc, read, hg, hp]
          rw [hstep]
          by_cases hw : isWronly f = true
          · rw [if_pos hw]
            refine ⟨hf, [], [], p, .inl ⟨on, ?_, .inr ⟨.inl ⟨.EBADF, ?_⟩, rfl⟩⟩, rfl, hp, rfl, by simp⟩
            · rw [hstep, if_pos hw]; rfl
            · rw [hstep, if_pos hw]; rfl
          · rw [if_neg hw]
            refine ⟨freshSet rfl rfl hp, (p.readNow n (f &&& oNONBLOCK ≠ 0)).2.2, [],
              (p.readNow n (f &&& oNONBLOCK ≠ 0)).1, .inl ⟨on, ?_, ?_⟩, rfl, by simp, ?_, ?_⟩
            · rw [hstep, if_neg hw]
            · rw [hstep, if_neg hw]
              generalize (decide (f &&& oNONBLOCK ≠ 0)) = nb
              unfold Pipe.Pipe.readNow Got; repeat' split
              all_goals simp
              omega
            · generalize (decide (f &&& oNONBLOCK ≠ 0)) = nb
              unfold Pipe.Pipe.readNow; repeat' split
              all_goals rfl
            · generalize (decide (f &&& oNONBLOCK ≠ 0)) = nb
              unfold Pipe.Pipe.readNow; repeat' split
              all_goals simp
        · have no := other fd (fun f h => ho ⟨f, h⟩)
          refine ⟨?_, [], [], p, .inr ⟨no, rfl⟩, rfl, ?_, rfl, by simp⟩
          · simp only [step, hc, read]
            repeat' split
            all_goals first
              | exact hf
              | exact same (setFd_pipes' ..) (setFd_npipe' ..)
              | exact freshSet rfl rfl ‹_›
          · simp only [step, hc, read]
            repeat' split
            all_goals first
              | exact hp
              | (rw [setFd_pipes']; exact hp)
              | (rename_i j f hg _ _ _ _
                 have : id ≠ j := by rintro rfl; exact ho ⟨_, hg⟩
                 simp only [upd_ne _ _ this]; exact hp)
              | skip
      | write fd data =>
        by_cases ho : ∃ f, getFd cg.fds fd = some (some (.pipe id f))
        · obtain ⟨f, hg⟩ := ho
          have on : OnPipe s c fd id := ⟨cg, f, hc, hg⟩
          have hstep : (step s c (.write fd data)) = if isRdonly f then (s, .r (.err .EBADF)) else
              ({ s with pipes := upd s.pipes id (some (p.writeNow data (f &&& oNONBLOCK ≠ 0)).1) },
                .r (p.writeNow data (f &&& oNONBLOCK ≠ 0)).2) := by
            simp only [step, hc, write, hg, hp]
          rw [hstep]
          by_cases hw : isRdonly f = true
          · rw [if_pos hw]
            refine ⟨hf, [], [], p, rfl, .inl ⟨on, .inr (.inl ⟨⟨.EBADF, ?_⟩, rfl⟩)⟩, hp, rfl, by simp⟩
            · rw [hstep, if_pos hw]; rfl
          · rw [if_neg hw]
            obtain ⟨bs, hb1, hb2⟩ := put_write p data (f &&& oNONBLOCK ≠ 0)
            refine ⟨freshSet rfl rfl hp, [], bs, _, rfl, .inl ⟨on, ?_⟩, upd_same .., ?_, ?_⟩
            · rw [hstep, if_neg hw]; exact hb1
            · rw [hb2]
            · rw [hb2]; rfl
        · have no := other fd (fun f h => ho ⟨f, h⟩)
          refine ⟨?_, [], [], p, rfl, .inr ⟨no, rfl⟩, ?_, rfl, by simp⟩
          · simp only [step, hc, write]
            repeat' split
            all_goals first
              | exact hf
              | exact same rfl rfl
              | exact same (setFd_pipes' ..) (setFd_npipe' ..)
              | exact freshSet rfl rfl ‹_›
          · simp only [step, hc, write]
            repeat' split
            all_goals first
              | exact hp
              | (rw [setFd_pipes']; exact hp)
              | (rename_i j f hg _ _ _ _
                 have : id ≠ j := by rintro rfl; exact ho ⟨_, hg⟩
                 simp only [upd_ne _ _ this]; exact hp)
              | skip
      | writev fd iovs =>
        by_cases ho : ∃ f, getFd cg.fds fd = some (some (.pipe id f))
        · obtain ⟨f, hg⟩ := ho
          have on : OnPipe s c fd id := ⟨cg, f, hc, hg⟩
          have hstep : (step s c (.writev fd iovs)) = if isRdonly f then (s, .r (.err .EBADF)) else
              ({ s with pipes := upd s.pipes id (some (p.writevNow iovs (f &&& oNONBLOCK ≠ 0)).1) },
                .r (p.writevNow iovs (f &&& oNONBLOCK ≠ 0)).2) := by
            simp only [step, hc, writev, hg, hp]
          rw [hstep]
          by_cases hw : isRdonly f = true
          · rw [if_pos hw]
            refine ⟨hf, [], [], p, rfl, .inl ⟨on, .inr (.inl ⟨⟨.EBADF, ?_⟩, rfl⟩)⟩, hp, rfl, by simp⟩
            · rw [hstep, if_pos hw]; rfl
          · rw [if_neg hw]
            obtain ⟨bs, hb1, hb2⟩ := put_writev p iovs (f &&& oNONBLOCK ≠ 0)
            refine ⟨freshSet rfl rfl hp, [], bs, _, rfl, .inl ⟨on, ?_⟩, upd_same .., ?_, ?_⟩
            · rw [hstep, if_neg hw]; exact hb1
            · rw [hb2]
            · rw [hb2]; rfl
        · have no := other fd (fun f h => ho ⟨f, h⟩)
          refine ⟨?_, [], [], p, rfl, .inr ⟨no, rfl⟩, ?_, rfl, by simp⟩
          · simp only [step, hc, writev]
            repeat' split
            all_goals first
              | exact hf
              | exact same rfl rfl
              | exact same (setFd_pipes' ..) (setFd_npipe' ..)
              | exact freshSet rfl rfl ‹_›
          · simp only [step, hc, writev]
            repeat' split
            all_goals first
              | exact hp
              | (rw [setFd_pipes']; exact hp)
              | (rename_i j f hg _ _ _ _
                 have : id ≠ j := by rintro rfl; exact ho ⟨_, hg⟩
                 simp only [upd_ne _ _ this]; exact hp)
              | skip
      | _ => exact absurd rfl hm

theorem step_fresh {s : State} (hf : Fresh s) (c : Nat) (op : Op) : Fresh (step s c op).1 := by
  by_cases hm : op.moves = false
  · exact (step_bufs hf c op hm).fresh hf
  · have set : ∀ {j : Nat} {q : Pipe}, s.pipes j = some q → ∀ q' : Pipe,
          Fresh { s with pipes := upd s.pipes j (some q') } := by
        intro j q hj q' i hi
        have : i ≠ j := by rintro rfl; rw [hf i hi] at hj; cases hj
        simp only [upd_ne _ _ this]; exact hf i hi
    have same : ∀ {s' : State}, s'.pipes = s.pipes → s'.npipe = s.npipe → Fresh s' := by
        intro s' e1 e2 i hi; rw [e1]; exact hf i (by rw [← e2]; exact hi)
    cases hc : s.cages c with
    | none => simp only [step, hc]; exact hf
    | some cg =>
      cases op <;> first
        | exact absurd rfl hm
        | (simp only [step, hc, read, write, writev]
           repeat' split
           all_goals first
              | exact hf
              | exact same rfl rfl
              | exact same (setFd_pipes' ..) (setFd_npipe' ..)
              | exact set ‹_› _)

theorem run_fresh {s : State} (hf : Fresh s) (h : List (Nat × Op)) : Fresh (run s h) := by
  induction h generalizing s with
  | nil => exact hf
  | cons x xs ih => exact ih (step_fresh hf x.1 x.2)

/-! ## Properties -/

/-- C01 over histories.  In any state the system can be in (`Fresh`, see `fresh_reachable`), with
a pipe `id` in it, and for any history of calls by any cages: the bytes read from the pipe, in
order, followed by what it still holds, are what it held at the start followed by the bytes
written to it, in order.  The pipe survives with its capacity whatever the calls are. -/
theorem pipe_fifo_history {s : State} (hf : Fresh s) (id : Nat) (p : Pipe)
    (hp : s.pipes id = some p) (h : List (Nat × Op)) :
    ∃ T G p', Moves id s h T G ∧ (run s h).pipes id = some p' ∧ p'.cap = p.cap ∧
      T ++ p'.buf = p.buf ++ G := by
  induction h generalizing s p with
  | nil => exact ⟨[], [], p, .nil s, hp, rfl, by simp⟩
  | cons x xs ih =>
    obtain ⟨c, op⟩ := x
    obtain ⟨hf1, t, g, p1, ht, hg, hp1, hc1, he1⟩ := step_moves hf c op id p hp
    obtain ⟨T, G, p2, hm, hp2, hc2, he2⟩ := ih hf1 p1 hp1
    refine ⟨t ++ T, g ++ G, p2, .cons ht hg hm, hp2, hc2.trans hc1, ?_⟩
    rw [List.append_assoc, he2, ← List.append_assoc, he1, List.append_assoc]

/-- What a history moved is determined by the calls and their results alone, up to what writes
that never returned may have put in: a history in which every write on the pipe returned has one
account only. -/
theorem moves_taken_unique {id : Nat} {s : State} {h : List (Nat × Op)} {T T' G G' : List UInt8}
    (m : Moves id s h T G) (m' : Moves id s h T' G') : T = T' := by
  induction m generalizing T' G' with
  | nil => cases m'; rfl
  | @cons s c op h t g T G ht hg hm ih =>
    cases m' with
    | @cons _ _ _ _ t' g' T' G' ht' hg' hm' =>
      rw [ih hm']
      congr 1
      cases op <;> first
        | (simp only [Takes] at ht ht'
           rcases ht with ⟨a, b, -⟩ | ⟨a, b⟩ <;> rcases ht' with ⟨a', b', -⟩ | ⟨a', b'⟩
           · rw [b, b']
           · exact absurd a a'
           · exact absurd a' a
           · rw [b, b'])
        | exact Eq.trans ht (Eq.symm ht')

/-- Every state reached from boot by any calls of any cages is `Fresh`. -/
theorem fresh_reachable (s : State) (hb : s.pipes = fun _ => none) (h : List (Nat × Op)) :
    Fresh (run s h) :=
  run_fresh (fun id _ => by rw [hb]) h

/-- A successful `pipe` makes a new, empty pipe of the stated capacity with one end of each kind. -/
theorem pipe2_new (s : State) (c : Nat) (flags : BitVec 32)
    (h : (step s c (.pipe2 flags)).2.ret = .ok 0) :
    ∃ p, (step s c (.pipe2 flags)).1.pipes s.npipe = some p ∧ p.buf = [] ∧
      p.cap = Pipe.pipeCapacity ∧ p.rref = 1 ∧ p.wref = 1 := by
  refine ⟨Pipe.Pipe.new Pipe.pipeCapacity, ?_, rfl, rfl, rfl, rfl⟩
  cases hc : s.cages c with
  | none => simp [step, hc, Out.r] at h
  | some cg =>
    simp only [step, hc, pipe2] at h ⊢
    repeat' split at h
    all_goals first
      | (simp [Out.r] at h; done)
      | simp only [setFd_pipes', upd_same]

/-- A cage makes a pipe, writes, forks; the child reads part of it and writes more through its own
copy; the parent closes the write end and reads the rest through a duplicate. -/
def demoPipe : List (Nat × Op) :=
  [(1, .write 4 [1, 2, 3]), (1, .fork 2), (2, .read 3 2), (2, .writev 4 [[4], [5, 6]]),
   (2, .exit 0), (1, .close 4), (1, .dup 3), (1, .read 4 10)]

example :
    (step init 1 (.pipe2 0)).2.ret = .ok 0 ∧
    (run (step init 1 (.pipe2 0)).1 demoPipe).pipes 0 =
      some { buf := [], cap := Pipe.pipeCapacity, rref := 2, wref := 0 } ∧
    (step (run (step init 1 (.pipe2 0)).1 (demoPipe.take 2)) 2 (.read 3 2)).2.data = [1, 2] ∧
    (step (run (step init 1 (.pipe2 0)).1 (demoPipe.take 7)) 1 (.read 4 10)).2.data = [3, 4, 5, 6] := by
  decide +kernel

example : Fresh (run (step init 1 (.pipe2 0)).1 demoPipe) :=
  run_fresh (step_fresh (step_fresh (s := boot format) (fun _ _ => rfl) 0 _) 1 _) _

end Verif.Kernel
