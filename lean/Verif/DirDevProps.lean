import Verif.NsWitness
import Verif.GetdentsProps

/-!
# Directories through descriptors, devices, standard streams: C21, C29, C63
-/

namespace Verif.Kernel
open Verif.Path Verif.Fs

/-! ## Specification -/

/-- Inode `i` is a directory with these entries. -/
def DirWith (s : State) (i : Nat) (ents : List (Str × Nat)) : Prop :=
  ∃ nd, s.fs.inodes i = some nd ∧ nd.kind = .dir ∧ nd.ents = ents

/-- Inode `i` is the device with this number. -/
def IsDev (s : State) (i : Nat) (dev : BitVec 32 × BitVec 32) : Prop := ∃ nd, s.fs.inodes i = some nd ∧ nd.kind = .chr dev

/-- A program reads the directory `i` through descriptor `fd` of cage `c`, from position `pos` on: calls of getdents with
some buffer sizes, each with what the program finds in the buffer, and between them anything that leaves the directory and
the descriptor as they are. -/
inductive Reads (c fd i : Nat) (ents : List (Str × Nat)) (f : BitVec 32) : State → List (Nat × Ret × List (Str × Nat)) → State → Prop
  | done (s : State) : Reads c fd i ents f s [] s
  | call {s s' : State} {b : Nat} {rest : List (Nat × Ret × List (Str × Nat))} {got : List (Str × Nat)}
      (hp : Getdents.parse b (step s c (.getdents fd b)).2.data = some got)
      (hr : Reads c fd i ents f (step s c (.getdents fd b)).1 rest s') :
      Reads c fd i ents f s ((b, (step s c (.getdents fd b)).2.ret, got) :: rest) s'
  | other {s s1 s' : State} {pos : Nat} {rest : List (Nat × Ret × List (Str × Nat))}
      (ho : OpenOn s c fd i pos f) (ho' : OpenOn s1 c fd i pos f) (hd : DirWith s1 i ents)
      (hr : Reads c fd i ents f s1 rest s') : Reads c fd i ents f s rest s'

/-- The entries found, in order. -/
def found (l : List (Nat × Ret × List (Str × Nat))) : List (Str × Nat) := l.flatMap (fun x => x.2.2)

/-! ## C29 -/

theorem getdents_step {s : State} {c fd i pos b : Nat} {f : BitVec 32} {ents : List (Str × Nat)}
    (ho : OpenOn s c fd i pos f) (hd : DirWith s i ents) (hb : Getdents.clipped < b) :
    (step s c (.getdents fd b)).2.ret = (Getdents.getdents ents pos b).ret ∧
    (step s c (.getdents fd b)).2.data = (Getdents.getdents ents pos b).bytes ∧
    OpenOn (step s c (.getdents fd b)).1 c fd i (Getdents.getdents ents pos b).pos f ∧
    (step s c (.getdents fd b)).1.fs = s.fs ∧
    ∀ c' fd', (c', fd') ≠ (c, fd) → slot (step s c (.getdents fd b)).1 c' fd' = slot s c' fd' := by
  obtain ⟨nd, h1, h2, h3⟩ := hd
  obtain ⟨cg, hc, hg, hs⟩ := ho.get
  have he : step s c (.getdents fd b) = (s.setFd c fd (some (.file i (Getdents.getdents ents pos b).pos f)),
      { ret := (Getdents.getdents ents pos b).ret, data := (Getdents.getdents ents pos b).bytes }) := by
    simp only [step, hc, getdents, hg, h1, Inode.isDir, h2, h3, if_neg (by omega : ¬ b ≤ Getdents.clipped), Int.toNat_natCast]
    simp
  rw [he]
  refine ⟨rfl, rfl, ⟨ho.1, _, by rw [setFd_at hc, upd_same], by simp [Cage.withSlot]⟩, by rw [setFd_fs], ?_⟩
  intro c' fd' hne
  simp only
  rw [slot_upd (cg := cg) (s := s) (n := fd) (c0 := c) (o := some (.file i (Getdents.getdents ents pos b).pos f)) (setFd_at hc)]
  by_cases e : c' = c
  · subst e
    have : fd' ≠ fd := fun e => hne (by rw [e])
    rw [if_pos rfl, if_neg this, slot_eq hc]
  · rw [if_neg e]

theorem OpenOn.pos_unique {s : State} {c fd i pos pos' : Nat} {f f' : BitVec 32} (h : OpenOn s c fd i pos f)
    (h' : OpenOn s c fd i pos' f') : pos = pos' := by
  obtain ⟨_, cg, h1, h2⟩ := h
  obtain ⟨_, cg', h3, h4⟩ := h'
  rw [h1] at h3; cases h3; rw [h2] at h4; cases h4; rfl

/-- C29.  What a program reads from a directory that stays as it is, through a descriptor nobody else moves: the entries
from the descriptor's position on, in order, none twice and none left out; the descriptor ends up behind them.  A call that
returns 0 although entries are left had a buffer too small for the next one. -/
theorem directory_reads {c fd i : Nat} {ents : List (Str × Nat)} {f : BitVec 32} (hs : Getdents.Sane ents) {s s' : State}
    {l : List (Nat × Ret × List (Str × Nat))} (hr : Reads c fd i ents f s l s') :
    ∀ {pos : Nat}, OpenOn s c fd i pos f → DirWith s i ents → pos ≤ ents.length → (∀ x ∈ l, Getdents.clipped < x.1) →
    ∃ k, found l = (ents.drop pos).take k ∧ pos + k ≤ ents.length ∧ OpenOn s' c fd i (pos + k) f ∧ DirWith s' i ents ∧
      (∀ x ∈ l, x.2.1 = .ok 0 → pos + k = ents.length ∨ ∃ e ∈ ents, Getdents.recLen e.1 > x.1) := by
  induction hr with
  | done s =>
    intro pos ho hd hp _
    exact ⟨0, by simp [found], hp, ho, hd, by simp⟩
  | @call s s' b rest got hparse hr ih =>
    intro pos ho hd hp hb
    have hb0 : Getdents.clipped < b := hb _ (List.mem_cons_self ..)
    obtain ⟨e1, e2, e3, e4, -⟩ := getdents_step ho hd hb0
    obtain ⟨k, k1, k2, k3, k4, k5⟩ := Getdents.getdents_one ents hs pos b hp hb0
    rw [e2, k1] at hparse
    cases hparse
    rw [k2] at e3
    have hd' : DirWith (step s c (.getdents fd b)).1 i ents := by
      obtain ⟨nd, h1, h2, h3⟩ := hd
      exact ⟨nd, by rw [e4]; exact h1, h2, h3⟩
    obtain ⟨m, m1, m2, m3, m4, m5⟩ := ih e3 hd' k3 (fun x hx => hb x (List.mem_cons_of_mem _ hx))
    refine ⟨k + m, ?_, by omega, by rw [← Nat.add_assoc]; exact m3, m4, ?_⟩
    · simp only [found, List.flatMap_cons] at m1 ⊢
      rw [m1, List.take_add, List.drop_drop]
    · intro x hx h0
      rcases List.mem_cons.1 hx with rfl | hx
      · dsimp only at h0
        rw [e1] at h0
        have hk := k4.1 h0
        rcases k5 hk with h | ⟨e, h1, h2⟩
        · left; omega
        · right
          refine ⟨e, ?_, h2⟩
          have := List.mem_of_mem_head? (by simpa using h1 : e ∈ (ents.drop pos).head?)
          exact List.mem_of_mem_drop this
      · rcases m5 x hx h0 with h | h
        · left; omega
        · exact .inr h
  | @other s s1 s' pos0 rest ho0 ho1 hd1 hr ih =>
    intro pos ho hd hp hb
    have := ho.pos_unique ho0
    subst this
    exact ih ho1 hd1 hp hb

/-- C29.  If the program reads from the start until a call returns 0, with buffers large enough for every record, it has
found exactly the entries of the directory, each once. -/
theorem directory_reads_all {c fd i : Nat} {ents : List (Str × Nat)} {f : BitVec 32} (hs : Getdents.Sane ents) {s s' : State}
    {l : List (Nat × Ret × List (Str × Nat))} (hr : Reads c fd i ents f s l s') (ho : OpenOn s c fd i 0 f) (hd : DirWith s i ents)
    (hb : ∀ x ∈ l, Getdents.clipped < x.1 ∧ ∀ e ∈ ents, Getdents.recLen e.1 ≤ x.1) (h0 : ∃ x ∈ l, x.2.1 = .ok 0) :
    found l = ents := by
  obtain ⟨k, h1, h2, -, -, h5⟩ := directory_reads hs hr ho hd (Nat.zero_le _) (fun x hx => (hb x hx).1)
  obtain ⟨x, hx, hx0⟩ := h0
  rcases h5 x hx hx0 with h | ⟨e, he, hlt⟩
  · rw [h1]; simp only [List.drop_zero]; apply List.take_of_length_le; omega
  · have := (hb x hx).2 e he; omega

/-- C29.  getdents on a descriptor that is not open, is not a directory, or with a buffer too small for any record: EBADF,
ENOTDIR, ESPIPE, EINVAL, and nothing changes. -/
theorem getdents_refuses {s : State} {c fd b : Nat} {cg : Cage} (hc : s.cages c = some cg) (hfd : fd < 1024) :
    (b ≤ Getdents.clipped → step s c (.getdents fd b) = (s, { ret := .err .EINVAL })) ∧
    (Getdents.clipped < b → cg.fds fd = none → step s c (.getdents fd b) = (s, { ret := .err .EBADF })) ∧
    (Getdents.clipped < b → ∀ i pos f nd, cg.fds fd = some (.file i pos f) → s.fs.inodes i = some nd → nd.kind ≠ .dir →
      step s c (.getdents fd b) = (s, { ret := .err .ENOTDIR })) ∧
    (Getdents.clipped < b → ∀ d, cg.fds fd = some d → (∀ i p f, d ≠ .file i p f) →
      step s c (.getdents fd b) = (s, { ret := .err .ESPIPE })) := by
  refine ⟨?_, ?_, ?_, ?_⟩
  · intro h; simp [step, hc, getdents, h, Out.r]
  · intro h h1
    simp [step, hc, getdents, show ¬ b ≤ Getdents.clipped by omega, getFd_nat hfd, h1, Out.r]
  · intro h i pos f nd h1 h2 h3
    have : nd.isDir = false := by unfold Inode.isDir; split <;> simp_all
    simp [step, hc, getdents, show ¬ b ≤ Getdents.clipped by omega, getFd_nat hfd, h1, h2, this, Out.r]
  · intro h d h1 hn
    simp only [step, hc, getdents, if_neg (show ¬ b ≤ Getdents.clipped by omega), getFd_nat hfd, h1]
    cases d <;> first | rfl | exact absurd rfl (hn _ _ _)

/-! ## C21 on directories -/

/-- C21.  The position of a directory descriptor can be moved to any entry and to the end, and no further. -/
theorem lseek_directory {s : State} {c fd i pos : Nat} {f : BitVec 32} {ents : List (Str × Nat)} {off wh : Int}
    (ho : OpenOn s c fd i pos f) (hd : DirWith s i ents) :
    (∀ b, seekBase pos ents.length wh = some b → 0 ≤ b + off → b + off ≤ ents.length →
      OpenOn (step s c (.lseek fd off wh)).1 c fd i (b + off).toNat f ∧
      (b + off < 2147483648 → (step s c (.lseek fd off wh)).2.ret = .ok (b + off)) ∧
      (step s c (.lseek fd off wh)).1.fs = s.fs ∧
      ∀ c' fd', (c', fd') ≠ (c, fd) → slot (step s c (.lseek fd off wh)).1 c' fd' = slot s c' fd') ∧
    ((∀ b, seekBase pos ents.length wh = some b → b + off < 0 ∨ (ents.length : Int) < b + off) →
      step s c (.lseek fd off wh) = (s, { ret := .err .EINVAL })) := by
  obtain ⟨nd, h1, h2, h3⟩ := hd
  obtain ⟨cg, hc, hg, hs⟩ := ho.get
  have ht : (if wh = 0 then some off else if wh = 1 then some ((pos : Int) + off) else
      if wh = 2 then some ((nd.ents.length : Int) + off) else none) = (seekBase pos ents.length wh).map (· + off) := by
    unfold seekBase
    rw [h3]
    repeat' split
    all_goals simp
  constructor
  · intro b hb h0 hle
    rw [hb] at ht
    have he : step s c (.lseek fd off wh) = (s.setFd c fd (some (.file i (b + off).toNat f)), .r (.ok (toI32 (b + off)))) := by
      simp only [step, hc, lseek, hg, h1, h2, ht, Option.map_some]
      simp only [if_neg (by omega : ¬ b + off < 0), h3,
        if_neg (by omega : ¬ b + off > (ents.length : Int)), Int.toNat_natCast]
    rw [he]
    refine ⟨⟨ho.1, _, by rw [setFd_at hc, upd_same], by simp [Cage.withSlot]⟩, ?_, by rw [setFd_fs], ?_⟩
    · intro hlt; simp only [Out.r]; rw [toI32_small h0 hlt]
    · intro c' fd' hne
      simp only
      rw [slot_upd (cg := cg) (s := s) (n := fd) (c0 := c) (o := some (.file i (b + off).toNat f)) (setFd_at hc)]
      by_cases e : c' = c
      · subst e
        have : fd' ≠ fd := fun e => hne (by rw [e])
        rw [if_pos rfl, if_neg this, slot_eq hc]
      · rw [if_neg e]
  · intro hb
    simp only [step, hc, lseek, hg, h1, h2, ht]
    cases hx : seekBase pos ents.length wh with
    | none => simp [Out.r]
    | some b =>
      simp only [Option.map_some, h3]
      rcases hb b hx with h | h
      · rw [if_pos h]; rfl
      · rw [if_neg (by omega), if_pos (by omega)]; rfl

/-! ## C63: devices and standard streams -/

/-- C63.  Reading a device: nothing from null, as many zeros as asked for from zero, as many bytes as asked for from the
random devices, EOPNOTSUPP from others; nothing changes.  `pread` is the same at every offset. -/
theorem device_read {s : State} {c fd i pos n : Nat} {f : BitVec 32} {dev : BitVec 32 × BitVec 32} {off : Int}
    (ho : OpenOn s c fd i pos f) (hd : IsDev s i dev) (hf : isWronly f = false) (hn : n < 2147483648) :
    (step s c (.read fd n)).1 = s ∧ step s c (.pread fd n off) = step s c (.read fd n) ∧
    (dev = (1, 3) → (step s c (.read fd n)).2 = { ret := .ok 0 }) ∧
    (dev = (1, 5) → (step s c (.read fd n)).2 = { ret := .ok n, data := List.replicate n 0 }) ∧
    (dev = (1, 8) ∨ dev = (1, 9) → (step s c (.read fd n)).2.ret = .ok n) ∧
    (dev ≠ (1, 3) → dev ≠ (1, 5) → dev ≠ (1, 8) → dev ≠ (1, 9) → (step s c (.read fd n)).2 = { ret := .err .EOPNOTSUPP }) := by
  obtain ⟨nd, h1, h2⟩ := hd
  obtain ⟨cg, hc, hg, hs⟩ := ho.get
  have he : step s c (.read fd n) = (s, readChr dev n) := by
    simp [step, hc, read, hg, h1, h2, hf]
  have he2 : step s c (.pread fd n off) = (s, readChr dev n) := by
    simp [step, hc, pread, hg, h1, h2, hf]
  have hi : toI32 (n : Int) = n := toI32_small (by omega) (by omega)
  rw [he, he2]
  refine ⟨rfl, rfl, ?_, ?_, ?_, ?_⟩
  · rintro rfl; rfl
  · rintro rfl; simp [readChr, hi]
  · rintro (rfl | rfl) <;> simp [readChr, hi, Out.r]
  · intro a b c d; unfold readChr; rw [if_neg a, if_neg b, if_neg (not_or.2 ⟨c, d⟩)]; rfl

/-- C63.  Writing to one of the four devices takes everything and changes nothing; other devices are EOPNOTSUPP. -/
theorem device_write {s : State} {c fd i pos : Nat} {f : BitVec 32} {dev : BitVec 32 × BitVec 32} {data : List UInt8} {off : Int}
    (ho : OpenOn s c fd i pos f) (hd : IsDev s i dev) (hf : isRdonly f = false) (hn : data.length < 2147483648) :
    (step s c (.write fd data)).1 = s ∧ step s c (.pwrite fd data off) = step s c (.write fd data) ∧
    (dev = (1, 3) ∨ dev = (1, 5) ∨ dev = (1, 8) ∨ dev = (1, 9) → (step s c (.write fd data)).2 = { ret := .ok data.length }) ∧
    (dev ≠ (1, 3) → dev ≠ (1, 5) → dev ≠ (1, 8) → dev ≠ (1, 9) → (step s c (.write fd data)).2 = { ret := .err .EOPNOTSUPP }) := by
  obtain ⟨nd, h1, h2⟩ := hd
  obtain ⟨cg, hc, hg, hs⟩ := ho.get
  have he : step s c (.write fd data) = (s, writeChr dev data.length) := by
    simp [step, hc, write, hg, h1, h2, hf]
  have he2 : step s c (.pwrite fd data off) = (s, writeChr dev data.length) := by
    simp [step, hc, pwrite, hg, h1, h2, hf]
  have hi : toI32 (data.length : Int) = data.length := toI32_small (by omega) (by omega)
  rw [he, he2]
  refine ⟨rfl, rfl, ?_, ?_⟩
  · rintro (rfl | rfl | rfl | rfl) <;> simp [writeChr, hi, Out.r]
  · intro a b c d; unfold writeChr; rw [if_neg (not_or.2 ⟨a, not_or.2 ⟨b, not_or.2 ⟨c, d⟩⟩⟩)]; rfl

/-- C63.  A device has no position: `lseek` returns 0 and changes nothing. -/
theorem device_lseek {s : State} {c fd i pos : Nat} {f : BitVec 32} {dev : BitVec 32 × BitVec 32} {off wh : Int}
    (ho : OpenOn s c fd i pos f) (hd : IsDev s i dev) : step s c (.lseek fd off wh) = (s, { ret := .ok 0 }) := by
  obtain ⟨nd, h1, h2⟩ := hd
  obtain ⟨cg, hc, hg, hs⟩ := ho.get
  simp [step, hc, lseek, hg, h1, h2, Out.r]

/-- C63.  A new system's cages have the standard streams at 0, 1 and 2 and nothing else: 0 for reading, 1 and 2 for
writing.  Writing to 1 and 2 takes everything; writing to 0 and reading are refused; nothing changes. -/
theorem standard_streams {c : Nat} (hc : c = 0 ∨ c = 1) (data : List UInt8) (n : Nat) (hn : data.length < 2147483648) :
    (∀ fd, slot init c fd ≠ none ↔ fd < 3) ∧
    step init c (.fcntl 0 3 0) = (init, { ret := .ok 0 }) ∧ step init c (.fcntl 1 3 0) = (init, { ret := .ok 1 }) ∧
    step init c (.fcntl 2 3 0) = (init, { ret := .ok 1 }) ∧
    step init c (.write 0 data) = (init, { ret := .err .EBADF }) ∧
    step init c (.write 1 data) = (init, { ret := .ok data.length }) ∧
    step init c (.write 2 data) = (init, { ret := .ok data.length }) ∧
    ∀ fd : Nat, fd < 3 → step init c (.read fd n) = (init, { ret := .err .EOPNOTSUPP }) := by
  have hi : toI32 (data.length : Int) = data.length := toI32_small (by omega) (by omega)
  have hcg : ∃ cg, init.cages c = some cg ∧ cg.fds = initTable := by
    rcases hc with rfl | rfl <;> exact ⟨_, rfl, rfl⟩
  obtain ⟨cg, h1, h2⟩ := hcg
  have g0 : getFd cg.fds 0 = some (some (.stream 0 0#32)) := by rw [h2]; decide +kernel
  have g1 : getFd cg.fds 1 = some (some (.stream 1 1#32)) := by rw [h2]; decide +kernel
  have g2 : getFd cg.fds 2 = some (some (.stream 2 1#32)) := by rw [h2]; decide +kernel
  refine ⟨?_, ?_, ?_, ?_, ?_, ?_, ?_, ?_⟩
  · intro fd
    rw [slot_eq h1, h2]
    match fd with
    | 0 => simp [initTable]
    | 1 => simp [initTable]
    | 2 => simp [initTable]
    | k + 3 => simp [initTable]
  · simp [step, h1, fcntl, g0, Out.r, Desc.flags]
  · simp [step, h1, fcntl, g1, Out.r, Desc.flags]; decide +kernel
  · simp [step, h1, fcntl, g2, Out.r, Desc.flags]; decide +kernel
  · simp [step, h1, write, g0, Out.r]
  · simp [step, h1, write, g1, Out.r, hi]
  · simp [step, h1, write, g2, Out.r, hi]
  · intro fd hfd
    match fd, hfd with
    | 0, _ => simp [step, h1, read, g0, Out.r]
    | 1, _ => simp [step, h1, read, g1, Out.r]
    | 2, _ => simp [step, h1, read, g2, Out.r]

/-! ## Cases in which the theorems apply -/

/-- `/dev/zero`. -/
def pZero : Str := [47, 100, 101, 118, 47, 122, 101, 114, 111]

/-- `tree` with `/d` open as 5 and `/dev/zero` as 6. -/
def tree2 : State := run tree [(0, .openP pD 0#32 0#32), (0, .openP pZero 2#32 0#32)]

theorem tree2_open : OpenOn tree2 0 5 9 0 0#32 ∧ OpenOn tree2 0 6 4 0 2#32 ∧ IsDev tree2 4 (1, 5) := by
  have h5 : slot tree2 0 5 = some (.file 9 0 0#32) := by decide +kernel
  have h6 : slot tree2 0 6 = some (.file 4 0 2#32) := by decide +kernel
  cases hc : tree2.cages 0 with
  | none => simp [slot, hc] at h5
  | some cg =>
    rw [slot_eq hc] at h5 h6
    refine ⟨⟨by omega, cg, hc, h5⟩, ⟨by omega, cg, hc, h6⟩, ?_⟩
    have hk : (tree2.fs.inodes 4).map (·.kind) = some (.chr (1, 5)) := by decide +kernel
    obtain ⟨nd, h1, h2⟩ := Option.map_eq_some_iff.1 hk
    exact ⟨nd, h1, h2⟩

/-- The entries of `/d`. -/
def entsD : List (Str × Nat) := [([101], 11), ([103], 10), ([102], 10), ([46], 9), ([46, 46], 1)]

theorem tree2_dir : DirWith tree2 9 entsD ∧ Getdents.Sane entsD := by
  refine ⟨?_, by simp [Getdents.Sane, entsD]⟩
  have hk : (tree2.fs.inodes 9).map (fun nd => (nd.kind, nd.ents)) = some (.dir, entsD) := by decide +kernel
  obtain ⟨nd, h1, h2⟩ := Option.map_eq_some_iff.1 hk
  simp only [Prod.mk.injEq] at h2
  exact ⟨nd, h1, h2.1, h2.2⟩

/-- `/d` is read in three calls with buffers of 80, 80 and 30 bytes, with a write to another file after the first: three
entries, two entries, none. -/
example : ∃ s', Reads 0 5 9 entsD 0#32 tree2
    [(80, .ok 72, [([101], 11), ([103], 10), ([102], 10)]), (80, .ok 48, [([46], 9), ([46, 46], 1)]), (30, .ok 0, [])] s' := by
  have o1 : OpenOn (step tree2 0 (.getdents 5 80)).1 0 5 9 3 0#32 := (getdents_step tree2_open.1 tree2_dir.1 (by decide)).2.2.1
  have d1 : DirWith (step (step tree2 0 (.getdents 5 80)).1 0 (.write 3 [7])).1 9 entsD := by
    have hk : ((step (step tree2 0 (.getdents 5 80)).1 0 (.write 3 [7])).1.fs.inodes 9).map (fun nd => (nd.kind, nd.ents)) =
        some (.dir, entsD) := by decide +kernel
    obtain ⟨nd, h1, h2⟩ := Option.map_eq_some_iff.1 hk
    simp only [Prod.mk.injEq] at h2
    exact ⟨nd, h1, h2.1, h2.2⟩
  have o2 : OpenOn (step (step tree2 0 (.getdents 5 80)).1 0 (.write 3 [7])).1 0 5 9 3 0#32 := by
    have h5 : slot (step (step tree2 0 (.getdents 5 80)).1 0 (.write 3 [7])).1 0 5 = some (.file 9 3 0#32) := by decide +kernel
    cases hc : (step (step tree2 0 (.getdents 5 80)).1 0 (.write 3 [7])).1.cages 0 with
    | none => simp [slot, hc] at h5
    | some cg => rw [slot_eq hc] at h5; exact ⟨by omega, cg, hc, h5⟩
  have r1 : (step tree2 0 (.getdents 5 80)).2.ret = .ok 72 := by decide +kernel
  have r2 : (step (step (step tree2 0 (.getdents 5 80)).1 0 (.write 3 [7])).1 0 (.getdents 5 80)).2.ret = .ok 48 := by
    decide +kernel
  have r3 : (step (step (step (step tree2 0 (.getdents 5 80)).1 0 (.write 3 [7])).1 0 (.getdents 5 80)).1 0
      (.getdents 5 30)).2.ret = .ok 0 := by decide +kernel
  refine ⟨(step (step (step (step tree2 0 (.getdents 5 80)).1 0 (.write 3 [7])).1 0 (.getdents 5 80)).1 0 (.getdents 5 30)).1, ?_⟩
  rw [← r1, ← r2, ← r3]
  refine .call (by decide +kernel) (.other o1 o2 d1 (.call (by decide +kernel) (.call (by decide +kernel) (.done _))))

/-- Reading the five entries from the third on: seek to 3, then to 6 (refused), then from the end. -/
example : (step tree2 0 (.lseek 5 3 0)).2.ret = .ok 3 ∧ (step tree2 0 (.lseek 5 6 0)).2.ret = .err .EINVAL ∧
    (step tree2 0 (.lseek 5 (-1) 2)).2.ret = .ok 4 := by decide +kernel

/-- Three zeros from `/dev/zero`. -/
example : (step tree2 0 (.read 6 3)).2 = { ret := .ok 3, data := [0, 0, 0] } ∧ (step tree2 0 (.write 6 [1, 2])).2.ret = .ok 2 := by
  decide +kernel

end Verif.Kernel
