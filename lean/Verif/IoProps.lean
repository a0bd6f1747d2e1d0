import Verif.FdProps

/-!
# Reading, writing, sizes, flags: C20, C21, C22, C23, C38, C39, C57

Specifications are on the bytes a file holds (`bytes`) and on descriptor slots.
-/

namespace Verif.Kernel
open Verif.Path Verif.Fs
open Verif.Pipe (Pipe End)

set_option linter.unusedSimpArgs false

/-! ## Specification -/

/-- The stored content of inode `i`. -/
def bytes (s : State) (i : Nat) : List UInt8 := (s.fs.disk i).getD []

/-- Inode `i` is a regular file of this size. -/
def IsFile (s : State) (i size : Nat) : Prop := ∃ nd, s.fs.inodes i = some nd ∧ nd.kind = .file ∧ nd.size = size

/-- Descriptor `fd` of cage `c` is open on inode `i` at position `pos` with these flags. -/
def OpenOn (s : State) (c fd i pos : Nat) (f : BitVec 32) : Prop :=
  fd < 1024 ∧ ∃ cg, s.cages c = some cg ∧ cg.fds fd = some (.file i pos f)

/-- What `data` written at `off` makes of a content: the old bytes outside the written range, zeros in a gap. -/
def Written (old : List UInt8) (off : Nat) (data : List UInt8) (new : List UInt8) : Prop :=
  (∀ k, k < data.length → new[off + k]? = data[k]?) ∧
  (∀ k, k < off ∨ off + data.length ≤ k → k < old.length → new[k]? = old[k]?) ∧
  (∀ k, old.length ≤ k → k < off → new[k]? = some 0) ∧
  new.length = max old.length (off + data.length)

/-- What truncation to `n` makes of a content. -/
def Truncated (old : List UInt8) (n : Nat) (new : List UInt8) : Prop :=
  new.length = n ∧ (∀ k, k < n → k < old.length → new[k]? = old[k]?) ∧
  (∀ k, k < n → old.length ≤ k → new[k]? = some 0)

/-- Nothing but the content and size of inode `i` differs in the file system, and nothing of any
other file's content. -/
def OnlyContent (s s' : State) (i : Nat) (size : Nat) : Prop :=
  (∀ j, j ≠ i → bytes s' j = bytes s j ∧ s'.fs.inodes j = s.fs.inodes j) ∧
  ∀ nd, s.fs.inodes i = some nd → s'.fs.inodes i = some { nd with size := size }

/-! ## Lemmas -/

theorem OpenOn.get {s c fd i pos f} (h : OpenOn s c fd i pos f) :
    ∃ cg, s.cages c = some cg ∧ getFd cg.fds fd = some (some (.file i pos f)) ∧ cg.fds fd = some (.file i pos f) := by
  obtain ⟨h1, cg, h2, h3⟩ := h
  exact ⟨cg, h2, by rw [getFd_nat h1, h3], h3⟩

theorem Inv.content {s : State} (h : Inv s []) {i size : Nat} (hf : IsFile s i size) :
    s.fs.disk i = some (bytes s i) ∧ (bytes s i).length = size := by
  obtain ⟨nd, h1, h2, h3⟩ := hf
  have := h.fs.loc i
  rw [h1] at this
  simp only [LocalAt, h2] at this
  obtain ⟨⟨d, d1, d2⟩, -⟩ := this
  simp only [bytes, d1, Option.getD_some]
  exact ⟨trivial, d2.trans h3⟩

theorem Inv.fobj {s : State} (h : Inv s []) {c fd i pos size : Nat} {f : BitVec 32}
    (ho : OpenOn s c fd i pos f) (hf : IsFile s i size) : s.fs.fobj i = some size := by
  obtain ⟨nd, h1, h2, h3⟩ := hf
  obtain ⟨-, cg, hc, hd⟩ := ho
  have hh := h.file_held hc hd
  have := h.fs.loc i
  rw [h1] at this
  simp only [LocalAt, h2] at this
  obtain ⟨-, hfo, href, -⟩ := this
  rw [hfo, if_neg (by omega), h3]

theorem written_overwrite (d : List UInt8) (off : Nat) (data : List UInt8) :
    Written d off data (overwrite (d ++ List.replicate (off - d.length) 0) off data) := by
  have hlen : (d ++ List.replicate (off - d.length) (0 : UInt8)).length = max d.length off := by simp; omega
  unfold overwrite
  split
  · rename_i e
    subst e
    refine ⟨by simp, ?_, ?_, by simp; omega⟩
    · intro k _ hk; rw [List.getElem?_append_left hk]
    · intro k h1 h2
      rw [List.getElem?_append_right h1, List.getElem?_replicate, if_pos (by omega)]
  · have ht : ((d ++ List.replicate (off - d.length) (0 : UInt8)).take off).length = off := by
      rw [List.length_take, hlen]; omega
    have hz : List.replicate (off - (d ++ List.replicate (off - d.length) (0 : UInt8)).length) (0 : UInt8) = [] := by
      rw [hlen]; simp; omega
    rw [hz, List.append_nil, List.append_assoc]
    refine ⟨?_, ?_, ?_, ?_⟩
    · intro k hk
      rw [List.getElem?_append_right (by omega), ht, Nat.add_sub_cancel_left, List.getElem?_append_left hk]
    · intro k h1 h2
      by_cases h : k < off
      · rw [List.getElem?_append_left (by omega), List.getElem?_take, if_pos h, List.getElem?_append_left h2]
      · rw [List.getElem?_append_right (by omega), ht, List.getElem?_append_right (by omega), List.getElem?_drop,
          List.getElem?_append_left (by omega)]
        congr 1; omega
    · intro k h1 h2
      rw [List.getElem?_append_left (by omega), List.getElem?_take, if_pos h2, List.getElem?_append_right h1,
        List.getElem?_replicate, if_pos (by omega)]
    · rw [List.length_append, ht, List.length_append, List.length_drop, hlen]; omega

theorem truncated_eq (d : List UInt8) (n : Nat) :
    Truncated d n (d.take n ++ List.replicate (n - d.length) 0) := by
  refine ⟨by simp; omega, ?_, ?_⟩
  · intro k h1 h2
    rw [List.getElem?_append_left (by simp; omega), List.getElem?_take, if_pos h1]
  · intro k h1 h2
    rw [List.getElem?_append_right (by simp; omega), List.getElem?_replicate, if_pos (by simp; omega)]

theorem Written.unique {old data a b : List UInt8} {off : Nat} (h : Written old off data a)
    (h' : Written old off data b) : a = b := by
  obtain ⟨a1, a2, a3, a4⟩ := h
  obtain ⟨b1, b2, b3, b4⟩ := h'
  apply List.ext_getElem?
  intro k
  by_cases hk : off ≤ k ∧ k < off + data.length
  · have e := a1 (k - off) (by omega)
    have e' := b1 (k - off) (by omega)
    rw [show off + (k - off) = k by omega] at e e'
    rw [e, e']
  · by_cases h1 : k < old.length
    · rw [a2 k (by omega) h1, b2 k (by omega) h1]
    · by_cases h2 : k < off
      · rw [a3 k (by omega) h2, b3 k (by omega) h2]
      · rw [List.getElem?_eq_none (by omega), List.getElem?_eq_none (by omega)]

/-! ## C23 -/

/-- C23.  The size `stat` reports for a regular file is the length of its stored content, and so is the size
the kernel uses for its open descriptors. -/
theorem size_is_length {s : State} (h : Reach s) {i size : Nat} (hf : IsFile s i size) :
    (bytes s i).length = size ∧
    ∀ c fd pos f, OpenOn s c fd i pos f → s.fs.fobj i = some size :=
  ⟨(h.inv.content hf).2, fun _ _ _ _ ho => h.inv.fobj ho hf⟩

/-- C23.  What `stat` and `fstat` say is the length of the content. -/
theorem stat_size {s : State} (h : Reach s) {c : Nat} {p : Str} {st : Stat} {cg : Cage}
    (hc : s.cages c = some cg) (hst : (step s c (.stat p)).2.stat = some st) (hf : ∃ n, IsFile s st.ino n) :
    st.size = (bytes s st.ino).length := by
  obtain ⟨n, hf⟩ := hf
  rw [(h.inv.content hf).2]
  obtain ⟨nd, h1, -, h3⟩ := hf
  simp only [step, hc, Fs.stat] at hst
  repeat' split at hst
  all_goals simp only [reduceCtorEq, Option.some.injEq] at hst
  rename_i i _ _ _ nd' hi
  subst hst
  simp only [statOf] at h1 ⊢
  rw [hi] at h1; cases h1
  exact h3

theorem fstat_size {s : State} (h : Reach s) {c fd i pos size : Nat} {f : BitVec 32}
    (ho : OpenOn s c fd i pos f) (hf : IsFile s i size) :
    (step s c (.fstat fd)).2.ret = .ok 0 ∧
    ∃ st, (step s c (.fstat fd)).2.stat = some st ∧ st.ino = i ∧ st.size = (bytes s i).length := by
  rw [(h.inv.content hf).2]
  obtain ⟨nd, h1, -, h3⟩ := hf
  obtain ⟨cg, hc, hg, -⟩ := ho.get
  simp only [step, hc, fstat, hg, h1]
  exact ⟨trivial, _, rfl, rfl, h3⟩

/-! ## C20 -/

/-- C20.  `read` on a regular file, from a position not beyond its end, returns the bytes from
the position on, as many as asked for and present, and advances the position by that much.  Partial: beyond the
end the code aborts (`read_past_end_violated`), and a count of 2^31 or more wraps. -/
theorem read_returns_partial {s : State} (h : Reach s) {c fd i pos size n : Nat} {f : BitVec 32}
    (ho : OpenOn s c fd i pos f) (hf : IsFile s i size) (hm : f &&& 3#32 ≠ 1#32) (hp : pos ≤ size) :
    (step s c (.read fd n)).2.data = ((bytes s i).drop pos).take n ∧
    (min n (size - pos) < 2147483648 → (step s c (.read fd n)).2.ret = .ok (min n (size - pos) : Nat)) ∧
    OpenOn (step s c (.read fd n)).1 c fd i (pos + min n (size - pos)) f ∧
    (step s c (.read fd n)).1.fs = s.fs := by
  have hfo := h.inv.fobj ho hf
  obtain ⟨hd, hl⟩ := h.inv.content hf
  obtain ⟨nd, h1, h2, h3⟩ := hf
  obtain ⟨cg, hc, hg, hs⟩ := ho.get
  have hw : isWronly f = false := by
    unfold isWronly oRDWRFLAGS; simpa using hm
  have hread : s.fs.readAt i pos n = some (((bytes s i).drop pos).take n) := by
    simp only [Fs.readAt, hfo, if_neg (by omega : ¬ pos > size), bytes]
  have hlen : (((bytes s i).drop pos).take n).length = min n (size - pos) := by simp [hl]
  simp only [step, hc, read, hg, hw, Bool.false_eq_true, if_false, h1, h2, hread]
  refine ⟨trivial, ?_, ⟨ho.1, _, by rw [setFd_at hc, upd_same], ?_⟩, ?_⟩
  · intro hn
    rw [hlen]
    have : toI32 ((min n (size - pos) : Nat) : Int) = (min n (size - pos) : Nat) := by
      unfold toI32
      rw [BitVec.toInt_ofInt, Int.bmod_eq_of_le] <;> omega
    rw [this]
  · simp [Cage.withSlot, hlen]
  · rw [setFd_fs]

/-- C20.  `pread` the same at any offset not beyond the end; the position stays. -/
theorem pread_returns_partial {s : State} (h : Reach s) {c fd i pos size n off : Nat} {f : BitVec 32}
    (ho : OpenOn s c fd i pos f) (hf : IsFile s i size) (hm : f &&& 3#32 ≠ 1#32) (hp : off ≤ size) :
    (step s c (.pread fd n off)).2.data = ((bytes s i).drop off).take n ∧
    (min n (size - off) < 2147483648 → (step s c (.pread fd n off)).2.ret = .ok (min n (size - off) : Nat)) ∧
    (step s c (.pread fd n off)).1 = s := by
  have hfo := h.inv.fobj ho hf
  obtain ⟨hd, hl⟩ := h.inv.content hf
  obtain ⟨nd, h1, h2, h3⟩ := hf
  obtain ⟨cg, hc, hg, hs⟩ := ho.get
  have hw : isWronly f = false := by
    unfold isWronly oRDWRFLAGS; simpa using hm
  have hread : s.fs.readAt i off n = some (((bytes s i).drop off).take n) := by
    simp only [Fs.readAt, hfo, if_neg (by omega : ¬ off > size), bytes]
  have hlen : (((bytes s i).drop off).take n).length = min n (size - off) := by simp [hl]
  simp only [step, hc, pread, hg, hw, Bool.false_eq_true, if_false, h1, h2,
    if_neg (by omega : ¬ (off : Int) < 0), Int.toNat_natCast, hread]
  refine ⟨trivial, ?_, trivial⟩
  intro hn
  rw [hlen]
  have : toI32 ((min n (size - off) : Nat) : Int) = (min n (size - off) : Nat) := by
    unfold toI32
    rw [BitVec.toInt_ofInt, Int.bmod_eq_of_le] <;> omega
  rw [this]

/-- What the three writing calls do to the file system. -/
theorem writeIno_written {s : State} (h : Inv s []) {c fd i pos size : Nat} {f : BitVec 32}
    (ho : OpenOn s c fd i pos f) (hf : IsFile s i size) {nd : Inode} (hi : s.fs.inodes i = some nd)
    (off : Nat) (data : List UInt8) :
    ∃ fs', s.fs.writeIno i nd off data = some fs' ∧ ∀ s' : State, s'.fs = fs' →
      Written (bytes s i) off data (bytes s' i) ∧ OnlyContent s s' i (max size (off + data.length)) := by
  have hfo := h.fobj ho hf
  obtain ⟨hd, hl⟩ := h.content hf
  obtain ⟨nd', h1, h2, h3⟩ := hf
  rw [hi] at h1; cases h1
  obtain ⟨fs', e0, e1, -, -, e4, -⟩ := writeIno_eq hd (hl.trans h3.symm) (by rw [hfo, h3]) off data
  refine ⟨fs', e0, fun s' hs' => ⟨?_, ?_, ?_⟩⟩
  · have : bytes s' i = overwrite (bytes s i ++ List.replicate (off - (bytes s i).length) 0) off data := by
      rw [bytes, hs', e4, upd_same, Option.getD_some, hl, h3]
    rw [this]
    exact written_overwrite _ _ _
  · intro j hj
    constructor
    · simp only [bytes, hs', e4, upd_ne _ _ hj]
    · rw [hs', e1]
      split
      · rw [upd_ne _ _ hj]
      · rfl
  · intro nd' hnd'
    rw [hi] at hnd'; cases hnd'
    rw [hs', e1]
    split
    · rw [upd_same]
      congr 2; omega
    · rw [hi]
      congr 1
      have : max size (off + data.length) = nd.size := by omega
      rw [this]

/-- C20.  `write` on a regular file puts the data at the position, changes no other byte and no other file,
advances the position, and returns the number of bytes. -/
theorem write_writes {s : State} (h : Reach s) {c fd i pos size : Nat} {f : BitVec 32} {data : List UInt8}
    (ho : OpenOn s c fd i pos f) (hf : IsFile s i size) (hm : f &&& 3#32 ≠ 0#32) :
    Written (bytes s i) pos data (bytes (step s c (.write fd data)).1 i) ∧
    OnlyContent s (step s c (.write fd data)).1 i (max size (pos + data.length)) ∧
    OpenOn (step s c (.write fd data)).1 c fd i (pos + data.length) f ∧
    (step s c (.write fd data)).2.ret = .ok (toI32 data.length) := by
  have hf' := hf
  obtain ⟨nd, h1, h2, h3⟩ := hf'
  obtain ⟨fs', e0, e1⟩ := writeIno_written h.inv ho hf h1 pos data
  obtain ⟨cg, hc, hg, hs⟩ := ho.get
  have hw : isRdonly f = false := by
    unfold isRdonly oRDWRFLAGS; simpa using hm
  simp only [step, hc, write, hg, hw, Bool.false_eq_true, if_false, h1, h2, e0, Int.toNat_natCast]
  have := e1 (({ s with fs := fs' } : State).setFd c fd (some (.file i (pos + data.length) f))) (by rw [setFd_fs])
  refine ⟨this.1, this.2, ⟨ho.1, _, by rw [setFd_at (s := { s with fs := fs' }) hc, upd_same], ?_⟩, rfl⟩
  simp [Cage.withSlot]

/-- C20.  The same for `writev`, with the buffers one after the other. -/
theorem writev_writes {s : State} (h : Reach s) {c fd i pos size : Nat} {f : BitVec 32} {iovs : List (List UInt8)}
    (ho : OpenOn s c fd i pos f) (hf : IsFile s i size) (hm : f &&& 3#32 ≠ 0#32) :
    Written (bytes s i) pos iovs.flatten (bytes (step s c (.writev fd iovs)).1 i) ∧
    OnlyContent s (step s c (.writev fd iovs)).1 i (max size (pos + iovs.flatten.length)) ∧
    OpenOn (step s c (.writev fd iovs)).1 c fd i (pos + iovs.flatten.length) f ∧
    (step s c (.writev fd iovs)).2.ret = .ok (toI32 iovs.flatten.length) := by
  have hf' := hf
  obtain ⟨nd, h1, h2, h3⟩ := hf'
  obtain ⟨fs', e0, e1⟩ := writeIno_written h.inv ho hf h1 pos iovs.flatten
  obtain ⟨cg, hc, hg, hs⟩ := ho.get
  have hw : isRdonly f = false := by
    unfold isRdonly oRDWRFLAGS; simpa using hm
  simp only [step, hc, writev, hg, hw, Bool.false_eq_true, if_false, h1, h2, e0, Int.toNat_natCast]
  have := e1 (({ s with fs := fs' } : State).setFd c fd (some (.file i (pos + iovs.flatten.length) f))) (by rw [setFd_fs])
  refine ⟨this.1, this.2, ⟨ho.1, _, by rw [setFd_at (s := { s with fs := fs' }) hc, upd_same], ?_⟩, rfl⟩
  simp [Cage.withSlot]

/-- C20.  The same for `pwrite`; no descriptor changes. -/
theorem pwrite_writes {s : State} (h : Reach s) {c fd i pos size off : Nat} {f : BitVec 32} {data : List UInt8}
    (ho : OpenOn s c fd i pos f) (hf : IsFile s i size) (hm : f &&& 3#32 ≠ 0#32) :
    Written (bytes s i) off data (bytes (step s c (.pwrite fd data off)).1 i) ∧
    OnlyContent s (step s c (.pwrite fd data off)).1 i (max size (off + data.length)) ∧
    (step s c (.pwrite fd data off)).1.cages = s.cages ∧
    (step s c (.pwrite fd data off)).2.ret = .ok (toI32 data.length) := by
  have hf' := hf
  obtain ⟨nd, h1, h2, h3⟩ := hf'
  obtain ⟨fs', e0, e1⟩ := writeIno_written h.inv ho hf h1 off data
  obtain ⟨cg, hc, hg, hs⟩ := ho.get
  have hw : isRdonly f = false := by
    unfold isRdonly oRDWRFLAGS; simpa using hm
  simp only [step, hc, pwrite, hg, hw, Bool.false_eq_true, if_false, h1, h2,
    if_neg (by omega : ¬ (off : Int) < 0), Int.toNat_natCast, e0]
  have := e1 { s with fs := fs' } rfl
  exact ⟨this.1, this.2, trivial, rfl⟩

/-! ## C21 -/

/-- The base an `lseek` counts from. -/
def seekBase (pos size : Nat) (whence : Int) : Option Int :=
  if whence = 0 then some 0 else if whence = 1 then some pos else if whence = 2 then some size else none

theorem toI32_small {v : Int} (h0 : 0 ≤ v) (h1 : v < 2147483648) : toI32 v = v := by
  unfold toI32
  rw [BitVec.toInt_ofInt, Int.bmod_eq_of_le] <;> omega

/-- C21.  `lseek` on a regular file moves to base plus offset, also beyond the end, and returns it (as long
as it fits 31 bits); nothing else changes. -/
theorem lseek_moves_partial {s : State} {c fd i pos size : Nat} {f : BitVec 32} {off wh b : Int}
    (ho : OpenOn s c fd i pos f) (hf : IsFile s i size) (hb : seekBase pos size wh = some b)
    (hpos : 0 ≤ b + off) :
    OpenOn (step s c (.lseek fd off wh)).1 c fd i (b + off).toNat f ∧
    (step s c (.lseek fd off wh)).2.ret = .ok (toI32 (b + off)) ∧
    (b + off < 2147483648 → (step s c (.lseek fd off wh)).2.ret = .ok (b + off)) ∧
    (step s c (.lseek fd off wh)).1.fs = s.fs ∧
    ∀ c' fd', (c', fd') ≠ (c, fd) → slot (step s c (.lseek fd off wh)).1 c' fd' = slot s c' fd' := by
  obtain ⟨nd, h1, h2, h3⟩ := hf
  obtain ⟨cg, hc, hg, hs⟩ := ho.get
  have ht : (if wh = 0 then some off else if wh = 1 then some ((pos : Int) + off) else
      if wh = 2 then some ((nd.size : Int) + off) else none) = some (b + off) := by
    unfold seekBase at hb
    split at hb
    · cases hb; simp [*]
    split at hb
    · cases hb; simp [*]
    split at hb
    · cases hb; simp [*]
    · cases hb
  have he : step s c (.lseek fd off wh) = (s.setFd c fd (some (.file i (b + off).toNat f)), .r (.ok (toI32 (b + off)))) := by
    simp only [step, hc, lseek, hg, h1, h2, ht, if_neg (by omega : ¬ b + off < 0), Int.toNat_natCast]
  rw [he]
  refine ⟨⟨ho.1, _, by rw [setFd_at hc, upd_same], by simp [Cage.withSlot]⟩, rfl, ?_, by rw [setFd_fs], ?_⟩
  · intro hlt; simp only [Out.r]; rw [toI32_small hpos hlt]
  · intro c' fd' hne
    simp only
    rw [slot_upd (cg := cg) (s := s) (n := fd) (c0 := c) (o := some (.file i (b + off).toNat f)) (setFd_at hc)]
    by_cases e : c' = c
    · subst e
      have : fd' ≠ fd := fun e => hne (by rw [e])
      rw [if_pos rfl, if_neg this, slot_eq hc]
    · rw [if_neg e]

/-- C21.  A negative target and an unknown base are EINVAL and change nothing. -/
theorem lseek_invalid {s : State} {c fd i pos size : Nat} {f : BitVec 32} {off wh : Int}
    (ho : OpenOn s c fd i pos f) (hf : IsFile s i size)
    (hb : ∀ b, seekBase pos size wh = some b → b + off < 0) :
    step s c (.lseek fd off wh) = (s, { ret := .err .EINVAL }) := by
  obtain ⟨nd, h1, h2, h3⟩ := hf
  obtain ⟨cg, hc, hg, hs⟩ := ho.get
  unfold seekBase at hb
  simp only [step, hc, lseek, hg, h1, h2]
  by_cases w0 : wh = 0
  · have := hb 0 (by rw [if_pos w0]); simp [w0, Out.r, show off < 0 by omega]
  by_cases w1 : wh = 1
  · have := hb pos (by rw [if_neg w0, if_pos w1]); simp [w1, Out.r, this]
  by_cases w2 : wh = 2
  · have := hb size (by rw [if_neg w0, if_neg w1, if_pos w2]); simp [w2, Out.r, h3, this]
  · simp [w0, w1, w2, Out.r]

/-- C21.  Pipes, sockets, streams and epoll objects have no position: ESPIPE. -/
theorem lseek_pipe {s : State} {c fd : Nat} {cg : Cage} {d : Desc} {off wh : Int}
    (hc : s.cages c = some cg) (hf : fd < 1024) (hd : cg.fds fd = some d) (hn : ∀ i p f, d ≠ .file i p f) :
    step s c (.lseek fd off wh) = (s, { ret := .err .ESPIPE }) := by
  simp only [step, hc, lseek, getFd_nat hf, hd]
  cases d <;> first | rfl | exact absurd rfl (hn _ _ _)

/-! ## C22 -/

theorem truncIno_done {s : State} (h : Inv s []) {i size : Nat} (hf : IsFile s i size) {len : Nat} (must : Bool)
    (hm : s.fs.fobj i = none → must = false) :
    ∃ fs', s.fs.truncIno i len must = (fs', .ok 0) ∧ ∀ s' : State, s'.fs = fs' →
      Truncated (bytes s i) len (bytes s' i) ∧ OnlyContent s s' i len := by
  obtain ⟨hd, hl⟩ := h.content hf
  obtain ⟨nd, h1, h2, h3⟩ := hf
  have hfo : s.fs.fobj i = none ∨ s.fs.fobj i = some nd.size := by
    have := h.fs.loc i
    rw [h1] at this
    simp only [LocalAt, h2] at this
    rw [this.2.1]
    split
    · exact .inl rfl
    · exact .inr rfl
  obtain ⟨fs', e0, e1, -, -, e4, -⟩ := truncIno_eq h1 h2 hd (hl.trans h3.symm) hfo must hm (len := len) (by omega)
  refine ⟨fs', e0, fun s' hs' => ⟨?_, ?_, ?_⟩⟩
  · have : bytes s' i = (bytes s i).take len ++ List.replicate (len - (bytes s i).length) 0 := by
      rw [bytes, hs', e4, upd_same, Option.getD_some, Int.toNat_natCast]
    rw [this]
    exact truncated_eq _ _
  · intro j hj
    constructor
    · simp only [bytes, hs', e4, upd_ne _ _ hj]
    · rw [hs', e1, upd_ne _ _ hj]
  · intro nd' hnd'
    rw [h1] at hnd'; cases hnd'
    rw [hs', e1, upd_same, Int.toNat_natCast]

/-- C22.  `ftruncate` on a writable descriptor of a regular file. -/
theorem ftruncate_truncates {s : State} (h : Reach s) {c fd i pos size len : Nat} {f : BitVec 32}
    (ho : OpenOn s c fd i pos f) (hf : IsFile s i size) (hm : f &&& 3#32 ≠ 0#32) :
    (step s c (.ftruncate fd len)).2.ret = .ok 0 ∧
    Truncated (bytes s i) len (bytes (step s c (.ftruncate fd len)).1 i) ∧
    OnlyContent s (step s c (.ftruncate fd len)).1 i len ∧
    (step s c (.ftruncate fd len)).1.cages = s.cages := by
  obtain ⟨fs', e0, e1⟩ := truncIno_done h.inv hf (len := len) true
    (by intro e; rw [h.inv.fobj ho hf] at e; cases e)
  obtain ⟨cg, hc, hg, hs⟩ := ho.get
  have hw : isRdonly f = false := by
    unfold isRdonly oRDWRFLAGS; simpa using hm
  simp only [step, hc, ftruncate, hg, hw, Bool.false_eq_true, if_false, State.onFs, e0, Out.r]
  have := e1 { s with fs := fs' } rfl
  exact ⟨trivial, this.1, this.2, trivial⟩

/-- C22.  `truncate` of a path that leads to a regular file. -/
theorem truncate_truncates {s : State} (h : Reach s) {c i size len : Nat} {p : Str} {cg : Cage}
    (hc : s.cages c = some cg) (hp : Walk s.fs.inodes rootIno (cg.path p) i) (hf : IsFile s i size) :
    (step s c (.truncate p len)).2.ret = .ok 0 ∧
    Truncated (bytes s i) len (bytes (step s c (.truncate p len)).1 i) ∧
    OnlyContent s (step s c (.truncate p len)).1 i len ∧
    (step s c (.truncate p len)).1.cages = s.cages := by
  obtain ⟨fs', e0, e1⟩ := truncIno_done h.inv hf (len := len) false (fun _ => rfl)
  obtain ⟨r, hr, hlook⟩ := look h.inv.fs.tree (cg.path p) (path_spec (h.inv.cage c cg hc).2.2 p).1
  have hw : ∃ par, r = (some i, par) := by
    cases hlook with
    | root e => rw [e] at hp; cases hp; exact ⟨_, rfl⟩
    | found _ _ w => rw [walk_fun h.inv.fs.tree w hp]; exact ⟨_, rfl⟩
    | free _ _ _ _ _ _ _ hno => exact absurd hp (hno i)
    | gone _ _ hno => exact absurd hp (hno i)
  obtain ⟨par, rfl⟩ := hw
  simp only [step, hc, Fs.truncate, hr, State.onFs, e0, Out.r]
  have := e1 { s with fs := fs' } rfl
  exact ⟨trivial, this.1, this.2, trivial⟩

/-- C22.  A negative length is EINVAL and changes nothing. -/
theorem truncate_negative {s : State} (h : Reach s) {c i : Nat} {p : Str} {cg : Cage} {len : Int}
    (hc : s.cages c = some cg) (hp : Walk s.fs.inodes rootIno (cg.path p) i) (hl : len < 0) :
    step s c (.truncate p len) = (s, { ret := .err .EINVAL }) := by
  obtain ⟨r, hr, hlook⟩ := look h.inv.fs.tree (cg.path p) (path_spec (h.inv.cage c cg hc).2.2 p).1
  have hw : ∃ par, r = (some i, par) := by
    cases hlook with
    | root e => rw [e] at hp; cases hp; exact ⟨_, rfl⟩
    | found _ _ w => rw [walk_fun h.inv.fs.tree w hp]; exact ⟨_, rfl⟩
    | free _ _ _ _ _ _ _ hno => exact absurd hp (hno i)
    | gone _ _ hno => exact absurd hp (hno i)
  obtain ⟨par, rfl⟩ := hw
  simp only [step, hc, Fs.truncate, hr, State.onFs, Fs.truncIno, if_pos hl, Out.r]

theorem ftruncate_negative {s : State} {c fd i pos : Nat} {f : BitVec 32} {len : Int}
    (ho : OpenOn s c fd i pos f) (hm : f &&& 3#32 ≠ 0#32) (hl : len < 0) :
    step s c (.ftruncate fd len) = (s, { ret := .err .EINVAL }) := by
  obtain ⟨cg, hc, hg, hs⟩ := ho.get
  have hw : isRdonly f = false := by
    unfold isRdonly oRDWRFLAGS; simpa using hm
  simp only [step, hc, ftruncate, hg, hw, Bool.false_eq_true, if_false, State.onFs, Fs.truncIno, if_pos hl, Out.r]

/-! ## C38 -/

/-- C38.  Reading calls on a write-only file descriptor: EBADF, nothing transferred or changed. -/
theorem read_needs_access {s : State} {c fd i pos n : Nat} {f : BitVec 32} {off : Int}
    (ho : OpenOn s c fd i pos f) (hm : f &&& 3#32 = 1#32) :
    step s c (.read fd n) = (s, { ret := .err .EBADF }) ∧ step s c (.pread fd n off) = (s, { ret := .err .EBADF }) := by
  obtain ⟨cg, hc, hg, hs⟩ := ho.get
  have hw : isWronly f = true := by unfold isWronly oRDWRFLAGS; simpa using hm
  simp only [step, hc, read, pread, hg, hw, if_true, Out.r]
  exact ⟨trivial, trivial⟩

/-- C38.  Writing calls on a read-only file descriptor: EBADF, nothing transferred or changed. -/
theorem write_needs_access {s : State} {c fd i pos : Nat} {f : BitVec 32} {off len : Int} {data : List UInt8}
    {iovs : List (List UInt8)} (ho : OpenOn s c fd i pos f) (hm : f &&& 3#32 = 0#32) :
    step s c (.write fd data) = (s, { ret := .err .EBADF }) ∧
    step s c (.pwrite fd data off) = (s, { ret := .err .EBADF }) ∧
    step s c (.writev fd iovs) = (s, { ret := .err .EBADF }) ∧
    step s c (.ftruncate fd len) = (s, { ret := .err .EBADF }) := by
  obtain ⟨cg, hc, hg, hs⟩ := ho.get
  have hw : isRdonly f = true := by unfold isRdonly oRDWRFLAGS; simpa using hm
  simp only [step, hc, write, pwrite, writev, ftruncate, hg, hw, if_true, Out.r]
  exact ⟨trivial, trivial, trivial, trivial⟩

/-- C38.  The wrong end of a pipe: EBADF, and the pipe is not touched. -/
theorem pipe_needs_access {s : State} {c fd id n : Nat} {cg : Cage} {f : BitVec 32} {data : List UInt8}
    {iovs : List (List UInt8)} (hc : s.cages c = some cg) (hf : fd < 1024) (hd : cg.fds fd = some (.pipe id f)) :
    (f &&& 3#32 = 1#32 → step s c (.read fd n) = (s, { ret := .err .EBADF })) ∧
    (f &&& 3#32 = 0#32 → step s c (.write fd data) = (s, { ret := .err .EBADF }) ∧
      step s c (.writev fd iovs) = (s, { ret := .err .EBADF })) := by
  constructor
  · intro hm
    have hw : isWronly f = true := by unfold isWronly oRDWRFLAGS; simpa using hm
    simp only [step, hc, read, getFd_nat hf, hd, hw, if_true, Out.r]
  · intro hm
    have hw : isRdonly f = true := by unfold isRdonly oRDWRFLAGS; simpa using hm
    simp only [step, hc, write, writev, getFd_nat hf, hd, hw, if_true, Out.r]
    exact ⟨trivial, trivial⟩

/-- C38.  A directory descriptor: EISDIR, or EBADF if the access mode is wrong too. -/
theorem directory_no_io {s : State} {c fd i pos n : Nat} {f : BitVec 32} {off : Int} {data : List UInt8}
    {iovs : List (List UInt8)} {nd : Inode} (ho : OpenOn s c fd i pos f) (hi : s.fs.inodes i = some nd)
    (hk : nd.kind = .dir) :
    ∀ op ∈ [Op.read fd n, .pread fd n off, .write fd data, .pwrite fd data off, .writev fd iovs],
      step s c op = (s, { ret := .err .EISDIR }) ∨ step s c op = (s, { ret := .err .EBADF }) := by
  obtain ⟨cg, hc, hg, hs⟩ := ho.get
  intro op hop
  simp only [List.mem_cons, List.not_mem_nil, or_false] at hop
  rcases hop with rfl | rfl | rfl | rfl | rfl <;>
    simp only [step, hc, read, pread, write, pwrite, writev, hg, hi, hk, Out.r] <;> split <;> simp

/-- C38.  `ftruncate` of a directory fails and changes nothing. -/
theorem directory_no_truncate {s : State} {c fd i pos : Nat} {f : BitVec 32} {len : Int} {nd : Inode}
    (ho : OpenOn s c fd i pos f) (hi : s.fs.inodes i = some nd) (hk : nd.kind = .dir) :
    ∃ e, step s c (.ftruncate fd len) = (s, { ret := .err e }) := by
  obtain ⟨cg, hc, hg, hs⟩ := ho.get
  simp only [step, hc, ftruncate, hg, State.onFs, Fs.truncIno, hi, hk, Out.r]
  split
  · exact ⟨_, rfl⟩
  · split <;> exact ⟨_, rfl⟩

/-! ## C39 -/

/-- The inode with new permission bits and everything else as it was. -/
def withPerm (nd : Inode) (m : BitVec 32) : Inode := { nd with mode := (nd.mode &&& ~~~0o777#32) ||| m }

theorem chmodIno_spec (fs : Fs) {i : Nat} {nd : Inode} (hi : fs.inodes i = some nd) {m : BitVec 32} :
    (m &&& 0o777#32 = m → (fs.chmodIno i m).2 = .ok 0 ∧
      (fs.chmodIno i m).1.inodes = upd fs.inodes i (some (withPerm nd m)) ∧
      (fs.chmodIno i m).1.disk = fs.disk ∧ (fs.chmodIno i m).1.fobj = fs.fobj ∧
      (fs.chmodIno i m).1.next = fs.next) ∧
    (m &&& 0o777#32 ≠ m → fs.chmodIno i m = (fs, .err .EINVAL)) := by
  unfold Fs.chmodIno sIRWXA
  constructor
  · intro h
    simp only [if_pos h, hi]
    split <;> exact ⟨trivial, rfl, rfl, rfl, rfl⟩
  · intro h
    simp only [if_neg h]

/-- C39.  `chmod` of an existing path. -/
theorem chmod_perm {s : State} (h : Reach s) {c i : Nat} {p : Str} {cg : Cage} {nd : Inode} {m : BitVec 32}
    (hc : s.cages c = some cg) (hp : Walk s.fs.inodes rootIno (cg.path p) i) (hi : s.fs.inodes i = some nd) :
    (m &&& 0o777#32 = m → (step s c (.chmod p m)).2.ret = .ok 0 ∧
      (step s c (.chmod p m)).1.fs.inodes = upd s.fs.inodes i (some (withPerm nd m)) ∧
      (∀ j, bytes (step s c (.chmod p m)).1 j = bytes s j) ∧ (step s c (.chmod p m)).1.cages = s.cages) ∧
    (m &&& 0o777#32 ≠ m → step s c (.chmod p m) = (s, { ret := .err .EINVAL })) := by
  obtain ⟨r, hr, hlook⟩ := look h.inv.fs.tree (cg.path p) (path_spec (h.inv.cage c cg hc).2.2 p).1
  have hw : ∃ par, r = (some i, par) := by
    cases hlook with
    | root e => rw [e] at hp; cases hp; exact ⟨_, rfl⟩
    | found _ _ w => rw [walk_fun h.inv.fs.tree w hp]; exact ⟨_, rfl⟩
    | free _ _ _ _ _ _ _ hno => exact absurd hp (hno i)
    | gone _ _ hno => exact absurd hp (hno i)
  obtain ⟨par, rfl⟩ := hw
  obtain ⟨h1, h2⟩ := chmodIno_spec s.fs hi (m := m)
  simp only [step, hc, Fs.chmod, hr, State.onFs, Out.r]
  constructor
  · intro hm
    obtain ⟨a, b, d, -⟩ := h1 hm
    exact ⟨a, b, fun j => by simp only [bytes, d], trivial⟩
  · intro hm; rw [h2 hm]

/-- C39.  `fchmod` of a descriptor. -/
theorem fchmod_perm {s : State} {c fd i pos : Nat} {f : BitVec 32} {nd : Inode} {m : BitVec 32}
    (ho : OpenOn s c fd i pos f) (hi : s.fs.inodes i = some nd) :
    (m &&& 0o777#32 = m → (step s c (.fchmod fd m)).2.ret = .ok 0 ∧
      (step s c (.fchmod fd m)).1.fs.inodes = upd s.fs.inodes i (some (withPerm nd m)) ∧
      (∀ j, bytes (step s c (.fchmod fd m)).1 j = bytes s j) ∧ (step s c (.fchmod fd m)).1.cages = s.cages) ∧
    (m &&& 0o777#32 ≠ m → step s c (.fchmod fd m) = (s, { ret := .err .EINVAL })) := by
  obtain ⟨cg, hc, hg, hs⟩ := ho.get
  obtain ⟨h1, h2⟩ := chmodIno_spec s.fs hi (m := m)
  simp only [step, hc, fchmod, hg, State.onFs, Out.r]
  constructor
  · intro hm
    obtain ⟨a, b, d, -⟩ := h1 hm
    exact ⟨a, b, fun j => by simp only [bytes, d], trivial⟩
  · intro hm; rw [h2 hm]

/-- C39.  The permission bits asked for are the ones `stat` then reports, and the file type
bits are the old ones. -/
theorem withPerm_bits (nd : Inode) (m : BitVec 32) (hm : m &&& 0o777#32 = m) :
    (withPerm nd m).mode &&& 0o777#32 = m ∧
    (withPerm nd m).mode &&& ~~~0o777#32 = nd.mode &&& ~~~0o777#32 := by
  have e1 : m &&& ~~~0o777#32 = 0#32 := by
    rw [← hm, BitVec.and_assoc]
    have : 0o777#32 &&& ~~~0o777#32 = 0#32 := by decide
    rw [this]; simp
  have e2 : ~~~0o777#32 &&& 0o777#32 = 0#32 := by decide
  have e3 : ~~~0o777#32 &&& ~~~0o777#32 = ~~~0o777#32 := by decide
  constructor
  · simp only [withPerm, BitVec.and_or_distrib_right]
    rw [BitVec.and_assoc, e2, hm]; simp
  · simp only [withPerm, BitVec.and_or_distrib_right]
    rw [BitVec.and_assoc, e3, e1]; simp

/-! ## C57 -/

/-- A descriptor with the flag word replaced. -/
def Desc.SameBut (d d' : Desc) : Prop := d'.setFlags 0 = d.setFlags 0

/-- The bits `open` takes only once: creation flags and the access mode. -/
def fixedBits : BitVec 32 := 0o1703#32
/-- The close-on-exec bit. -/
def cloexecBit : BitVec 32 := 0o2000000#32

theorem setFlags_flags (d : Desc) (f : BitVec 32) : (d.setFlags f).flags = f := by cases d <;> rfl
theorem setFlags_same (d : Desc) (f : BitVec 32) : d.SameBut (d.setFlags f) := by cases d <;> rfl

/-- C57.  `F_SETFD` with a non-negative argument sets the close-on-exec bit of this descriptor to that
bit of the argument and changes nothing else.  Partial: the bit tested in the argument is `O_CLOEXEC`, not
`FD_CLOEXEC` (`setfd_one_violated`). -/
theorem setfd_only_cloexec_partial {s : State} {c fd : Nat} {cg : Cage} {d : Desc} {arg : BitVec 32}
    (hc : s.cages c = some cg) (hf : fd < 1024) (hd : cg.fds fd = some d) (ha : 0 ≤ arg.toInt) :
    (step s c (.fcntl fd 2 arg)).2.ret = .ok 0 ∧
    (∃ d', slot (step s c (.fcntl fd 2 arg)).1 c fd = some d' ∧ d.SameBut d' ∧
      d'.flags &&& ~~~cloexecBit = d.flags &&& ~~~cloexecBit ∧
      d'.flags &&& cloexecBit = arg &&& cloexecBit) ∧
    (∀ c' fd', (c', fd') ≠ (c, fd) → slot (step s c (.fcntl fd 2 arg)).1 c' fd' = slot s c' fd') ∧
    (step s c (.fcntl fd 2 arg)).1.fs = s.fs := by
  have key : ∃ f, step s c (.fcntl fd 2 arg) = (s.setFd c fd (some (d.setFlags f)), .r (.ok 0)) ∧
      f &&& ~~~cloexecBit = d.flags &&& ~~~cloexecBit ∧ f &&& cloexecBit = arg &&& cloexecBit := by
    simp only [step, hc, fcntl, getFd_nat hf, hd, Int.toNat_natCast, cloexecBit]
    rw [if_neg (by decide), if_pos ⟨trivial, ha⟩]
    have one : ∀ x : BitVec 32, x &&& 0o2000000#32 ≠ 0#32 → x &&& 0o2000000#32 = 0o2000000#32 := by
      intro x hx
      apply BitVec.eq_of_getLsbD_eq
      intro k hk
      by_cases h19 : k = 19
      · subst h19
        cases hb : x.getLsbD 19
        · exfalso; apply hx
          apply BitVec.eq_of_getLsbD_eq
          intro j hj
          by_cases h : j = 19
          · subst h; rw [BitVec.getLsbD_and, hb]; simp
          · have : (0o2000000#32).getLsbD j = false := by
              have := hj
              revert h; revert j; decide
            simp [this]
        · simp [hb]
      · have : (0o2000000#32).getLsbD k = false := by
          revert h19; revert k; decide
        simp [this]
    split
    · rename_i h
      refine ⟨_, rfl, ?_, ?_⟩
      · rw [BitVec.and_or_distrib_right]
        have : oCLOEXEC &&& ~~~0o2000000#32 = 0#32 := by decide
        rw [this]; simp
      · rw [BitVec.and_or_distrib_right, one arg h]
        have : oCLOEXEC &&& 0o2000000#32 = 0o2000000#32 := by decide
        rw [this]
        apply BitVec.eq_of_getLsbD_eq
        intro k hk; simp only [BitVec.getLsbD_or, BitVec.getLsbD_and]
        cases (0o2000000#32).getLsbD k <;> simp
    · rename_i h
      have h0 : arg &&& 0o2000000#32 = 0#32 := by simpa [oCLOEXEC] using h
      refine ⟨_, rfl, ?_, ?_⟩
      · rw [BitVec.and_assoc]; congr 1
      · rw [BitVec.and_assoc, h0]
        have : ~~~oCLOEXEC &&& 0o2000000#32 = 0#32 := by decide
        rw [this]; simp
  obtain ⟨f, he, h1, h2⟩ := key
  rw [he]
  refine ⟨rfl, ⟨d.setFlags f, ?_, setFlags_same d f, ?_, ?_⟩, ?_, by rw [setFd_fs]⟩
  · rw [slot_upd (cg := cg) (s := s) (n := fd) (c0 := c) (o := some (d.setFlags f)) (setFd_at hc)]; simp
  · rw [setFlags_flags]; exact h1
  · rw [setFlags_flags]; exact h2
  · intro c' fd' hne
    simp only
    rw [slot_upd (cg := cg) (s := s) (n := fd) (c0 := c) (o := some (d.setFlags f)) (setFd_at hc)]
    by_cases e : c' = c
    · subst e
      have : fd' ≠ fd := fun e => hne (by rw [e])
      rw [if_pos rfl, if_neg this, slot_eq hc]
    · rw [if_neg e]

/-- C57.  `F_SETFL` with a non-negative argument keeps the access mode and the creation flags of the
descriptor, takes all other bits from the argument, and changes nothing else.  Partial: close-on-exec is
among the other bits (`setfl_cloexec_violated`). -/
theorem setfl_keeps_partial {s : State} {c fd : Nat} {cg : Cage} {d : Desc} {arg : BitVec 32}
    (hc : s.cages c = some cg) (hf : fd < 1024) (hd : cg.fds fd = some d) (ha : 0 ≤ arg.toInt) :
    (step s c (.fcntl fd 4 arg)).2.ret = .ok 0 ∧
    (∃ d', slot (step s c (.fcntl fd 4 arg)).1 c fd = some d' ∧ d.SameBut d' ∧
      d'.flags &&& fixedBits = d.flags &&& fixedBits ∧
      d'.flags &&& ~~~fixedBits = arg &&& ~~~fixedBits) ∧
    (∀ c' fd', (c', fd') ≠ (c, fd) → slot (step s c (.fcntl fd 4 arg)).1 c' fd' = slot s c' fd') ∧
    (step s c (.fcntl fd 4 arg)).1.fs = s.fs := by
  have hk : oRDWRFLAGS ||| oCREAT ||| oEXCL ||| oNOCTTY ||| oTRUNC = fixedBits := by decide
  have he : step s c (.fcntl fd 4 arg) =
      (s.setFd c fd (some (d.setFlags ((arg &&& ~~~fixedBits) ||| (d.flags &&& fixedBits)))), .r (.ok 0)) := by
    simp only [step, hc, fcntl, getFd_nat hf, hd, Int.toNat_natCast, hk]
    rw [if_neg (by decide), if_neg (by intro h; exact absurd h.1 (by decide)), if_neg (by decide), if_pos ⟨trivial, ha⟩]
  rw [he]
  generalize hff : (arg &&& ~~~fixedBits) ||| (d.flags &&& fixedBits) = f
  have h1 : f &&& fixedBits = d.flags &&& fixedBits := by
    rw [← hff]
    apply BitVec.eq_of_getLsbD_eq
    intro k hk; simp only [BitVec.getLsbD_or, BitVec.getLsbD_and, BitVec.getLsbD_not, hk, decide_true, Bool.true_and]
    cases fixedBits.getLsbD k <;> simp
  have h2 : f &&& ~~~fixedBits = arg &&& ~~~fixedBits := by
    rw [← hff]
    apply BitVec.eq_of_getLsbD_eq
    intro k hk; simp only [BitVec.getLsbD_or, BitVec.getLsbD_and, BitVec.getLsbD_not, hk, decide_true, Bool.true_and]
    cases fixedBits.getLsbD k <;> simp
  refine ⟨rfl, ⟨d.setFlags f, ?_, setFlags_same d f, ?_, ?_⟩, ?_, by rw [setFd_fs]⟩
  · rw [slot_upd (cg := cg) (s := s) (n := fd) (c0 := c) (o := some (d.setFlags f)) (setFd_at hc)]; simp
  · rw [setFlags_flags]; exact h1
  · rw [setFlags_flags]; exact h2
  · intro c' fd' hne
    simp only
    rw [slot_upd (cg := cg) (s := s) (n := fd) (c0 := c) (o := some (d.setFlags f)) (setFd_at hc)]
    by_cases e : c' = c
    · subst e
      have : fd' ≠ fd := fun e => hne (by rw [e])
      rw [if_pos rfl, if_neg this, slot_eq hc]
    · rw [if_neg e]

/-- C57.  `F_GETFD` reports the close-on-exec bit and `F_GETFL` the other flags that are not creation
flags; neither changes anything. -/
theorem getfd_getfl {s : State} {c fd : Nat} {cg : Cage} {d : Desc} {arg : BitVec 32}
    (hc : s.cages c = some cg) (hf : fd < 1024) (hd : cg.fds fd = some d) :
    step s c (.fcntl fd 1 arg) = (s, { ret := .ok (d.flags &&& cloexecBit).toInt }) ∧
    step s c (.fcntl fd 3 arg) = (s, { ret := .ok (d.flags &&& ~~~0o1700#32).toInt }) := by
  simp only [step, hc, fcntl, getFd_nat hf, hd]
  constructor
  · rfl
  · rw [if_neg (by decide), if_neg (by intro h; exact absurd h.1 (by decide)), if_pos trivial]
    have : oCREAT ||| oEXCL ||| oNOCTTY ||| oTRUNC = 0o1700#32 := by decide
    rw [this]; rfl

/-- C57.  Negative arguments of the setting commands, and unknown commands, are EINVAL and change nothing. -/
theorem fcntl_invalid {s : State} {c fd : Nat} {cg : Cage} {d : Desc} {cmd : Int} {arg : BitVec 32}
    (hc : s.cages c = some cg) (hf : fd < 1024) (hd : cg.fds fd = some d)
    (h : (cmd ∈ [0, 2, 4, 8] ∧ arg.toInt < 0) ∨ cmd ∉ [0, 1, 2, 3, 4, 8, 9]) :
    step s c (.fcntl fd cmd arg) = (s, { ret := .err .EINVAL }) := by
  simp only [step, hc, fcntl, getFd_nat hf, hd]
  simp only [List.mem_cons, List.not_mem_nil, or_false, not_or] at h
  rcases h with ⟨h, hn⟩ | h
  · have hn' : ¬ arg.toInt ≥ 0 := by omega
    rcases h with rfl | rfl | rfl | rfl <;> simp [hn', Out.r]
  · obtain ⟨h0, h1, h2, h3, h4, h8, h9⟩ := h
    simp [h0, h1, h2, h3, h4, h8, h9, Out.r]

/-! ## Cases in which the theorems apply -/

/-- Inode 9 is `/a` in `demo`: a regular file of three bytes, open as descriptor 3 for reading and writing at
position 3. -/
theorem demo_open : OpenOn demo 0 3 9 3 2#32 ∧ IsFile demo 9 3 ∧ bytes demo 9 = [1, 2, 3] := by
  refine ⟨⟨by decide, ?_⟩, ?_, by decide +kernel⟩
  · cases h : demo.cages 0 with
    | none =>
      have : (demo.cages 0).isSome = true := by decide +kernel
      rw [h] at this; cases this
    | some cg =>
      have : slot demo 0 3 = some (.file 9 3 2#32) := by decide +kernel
      rw [slot_eq h] at this
      exact ⟨cg, rfl, this⟩
  · cases h : demo.fs.inodes 9 with
    | none =>
      have : (demo.fs.inodes 9).isSome = true := by decide +kernel
      rw [h] at this; cases this
    | some nd =>
      have : (demo.fs.inodes 9).map (fun nd => (nd.kind, nd.size)) = some (.file, 3) := by decide +kernel
      rw [h] at this
      simp only [Option.map_some, Option.some.injEq, Prod.mk.injEq] at this
      exact ⟨nd, h, this.1, this.2⟩

/-- Write over the end at a gap, read back from the start: the old bytes, zeros in the gap, the new bytes (C20, C21, C23). -/
example : let s := run demo [(0, .pwrite 3 [9, 9] 5), (0, .lseek 3 0 0)]
    (step s 0 (.read 3 100)).2 = { ret := .ok 7, data := [1, 2, 3, 0, 0, 9, 9] } ∧
    (step s 0 (.stat pA)).2.stat.map (·.size) = some 7 ∧ (step s 0 (.lseek 3 (-2) 2)).2.ret = .ok 5 ∧
    (step s 0 (.lseek 3 (-8) 2)).2.ret = .err .EINVAL ∧ (step s 0 (.lseek 4 0 0)).2.ret = .err .ESPIPE := by
  decide +kernel

/-- Truncation to 2 and then to 4 (C22). -/
example : let s := run demo [(0, .ftruncate 3 2), (0, .truncate pA 4)]
    bytes s 9 = [1, 2, 0, 0] ∧ (step s 0 (.truncate pA (-1))).2.ret = .err .EINVAL ∧
    (step s 0 (.ftruncate 4 1)).2.ret = .err .EINVAL := by decide +kernel

/-- A read-only and a write-only descriptor of `/a`, and one of the root directory (C38). -/
example : let s := run demo [(0, .openP pA 0#32 0#32), (0, .openP pA 1#32 0#32), (0, .openP [47] 0#32 0#32)]
    (step s 0 (.write 6 [1])).2.ret = .err .EBADF ∧ (step s 0 (.ftruncate 6 0)).2.ret = .err .EBADF ∧
    (step s 0 (.read 7 1)).2.ret = .err .EBADF ∧ (step s 0 (.read 8 1)).2.ret = .err .EISDIR ∧
    (step s 0 (.write 4 [1])).2.ret = .err .EBADF ∧ (step s 0 (.read 5 1)).2.ret = .err .EBADF := by decide +kernel

/-- Modes (C39). -/
example : let s := run demo [(0, .chmod pA 0o440#32)]
    (step s 0 (.stat pA)).2.stat.map (fun st => (st.mode, st.size)) = some (0o100440#32, 3) ∧
    (step s 0 (.fchmod 3 0o1777#32)).2.ret = .err .EINVAL := by decide +kernel

/-- Descriptor flags (C57). -/
example : let s := run demo [(0, .fcntl 5 4 0o4001#32)]
    (step s 0 (.fcntl 5 3 0)).2.ret = .ok 0o4001 ∧ (step s 0 (.fcntl 4 1 0)).2.ret = .ok 0o2000000 ∧
    (step s 0 (.fcntl 5 4 0xffffffff#32)).2.ret = .err .EINVAL := by decide +kernel

/-! ## Violations -/

/-- C20, violated: reading at a position beyond the end of the file, reached by a legal `lseek`, aborts the process
instead of returning 0. -/
theorem read_past_end_violated : let s := run demo [(0, .lseek 3 4 0)]
    Reach s ∧ (step s 0 (.read 3 1)).2.ret = .panic ∧ (step demo 0 (.pread 3 1 4)).2.ret = .panic := by
  refine ⟨demo_reach.run [(0, .lseek 3 4 0)] (by decide +kernel), by decide +kernel⟩

/-- C20, violated: another descriptor's truncation is enough to make a plain `read` abort. -/
theorem read_after_truncate_violated : let s := run demo [(0, .truncate pA 0)]
    Reach s ∧ (step s 0 (.read 3 1)).2.ret = .panic := by
  refine ⟨demo_reach.run [(0, .truncate pA 0)] (by decide +kernel), by decide +kernel⟩

/-- C20, violated: a negative offset aborts the process instead of giving EINVAL. -/
theorem negative_offset_violated : Reach demo ∧ (step demo 0 (.pread 3 1 (-1))).2.ret = .panic ∧
    (step demo 0 (.pwrite 3 [1] (-1))).2.ret = .panic := by
  refine ⟨demo_reach, by decide +kernel⟩

/-- C20, violated: a write of no bytes beyond the end makes the file longer. -/
theorem empty_write_violated : Reach demo ∧ (step demo 0 (.pwrite 3 [] 5)).2.ret = .ok 0 ∧
    bytes (step demo 0 (.pwrite 3 [] 5)).1 9 = [1, 2, 3, 0, 0] := by
  refine ⟨demo_reach, by decide +kernel⟩

/-- C20, violated: a descriptor opened with `O_APPEND` writes at its own position, not at the end. -/
theorem append_violated : let s := run demo [(0, .openP pA 0o2001#32 0#32), (0, .write 3 [4]), (0, .write 6 [5])]
    Reach s ∧ bytes s 9 = [1, 2, 3, 5] := by
  refine ⟨demo_reach.run [(0, .openP pA 0o2001#32 0#32), (0, .write 3 [4]), (0, .write 6 [5])] (by decide +kernel), by decide +kernel⟩

/-- C21, violated: `lseek` to 2^31 moves the position there but returns a negative number. -/
theorem lseek_wrap_violated : Reach demo ∧ (step demo 0 (.lseek 3 2147483648 0)).2.ret = .ok (-2147483648) := by
  refine ⟨demo_reach, by decide +kernel⟩

/-- C57, violated: `F_SETFL` clears close-on-exec. -/
theorem setfl_cloexec_violated : let s := run demo [(0, .fcntl 4 4 0#32)]
    Reach s ∧ (step demo 0 (.fcntl 4 1 0)).2.ret = .ok 0o2000000 ∧ (step s 0 (.fcntl 4 1 0)).2.ret = .ok 0 := by
  refine ⟨demo_reach.run [(0, .fcntl 4 4 0#32)] (by decide +kernel), by decide +kernel⟩

/-- C57, violated: `F_SETFD` with `FD_CLOEXEC` (1), as POSIX has it, clears the bit instead of setting it. -/
theorem setfd_one_violated : let s := run demo [(0, .fcntl 4 2 1#32)]
    Reach s ∧ (step s 0 (.fcntl 4 1 0)).2.ret = .ok 0 := by
  refine ⟨demo_reach.run [(0, .fcntl 4 2 1#32)] (by decide +kernel), by decide +kernel⟩

end Verif.Kernel
