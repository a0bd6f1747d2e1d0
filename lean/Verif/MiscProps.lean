import Verif.Misc
import Verif.IoProps
import Verif.NoPanic

/-!
# C68, C69: mappings keep within the rights of the descriptor; synchronising, status and control calls

Access modes are written out: the low two bits of the flags are 0 for reading, 1 for writing, 2 for both.
-/

namespace Verif.Misc
open Verif.Path Verif.Fs Verif.Kernel

/-! ## Specification -/

/-- The sharing bits of `mmap` are set to exactly one of `MAP_SHARED` (1) and `MAP_PRIVATE` (2). -/
def OneKind (flags : BitVec 32) : Prop := flags.getLsbD 0 ≠ flags.getLsbD 1

/-- `MAP_ANONYMOUS` (32). -/
def Anonymous (flags : BitVec 32) : Prop := flags.getLsbD 5 = true

/-- A shared mapping (`MAP_SHARED`, 1) through which memory can be written (`PROT_WRITE`, 2): stores change the file. -/
def Stores (prot flags : BitVec 32) : Prop := flags.getLsbD 0 = true ∧ prot.getLsbD 1 = true

/-- The descriptor was opened for reading. -/
def Readable (f : BitVec 32) : Prop := f &&& 3#32 = 0#32 ∨ f &&& 3#32 = 2#32

/-- The descriptor was opened for reading and writing. -/
def ReadWrite (f : BitVec 32) : Prop := f &&& 3#32 = 2#32

instance (g : BitVec 32) : Decidable (OneKind g) := inferInstanceAs (Decidable (_ ≠ _))
instance (g : BitVec 32) : Decidable (Anonymous g) := inferInstanceAs (Decidable (_ = _))
instance (p g : BitVec 32) : Decidable (Stores p g) := inferInstanceAs (Decidable (_ ∧ _))
instance (g : BitVec 32) : Decidable (Readable g) := inferInstanceAs (Decidable (_ ∨ _))
instance (g : BitVec 32) : Decidable (ReadWrite g) := inferInstanceAs (Decidable (_ = _))

/-- The descriptor `fd` has inode `i` open, and its rights and the size of the file allow this mapping. -/
def MayMap (s : State) (c : Nat) (prot flags : BitVec 32) (fd off : Int) (i : Nat) : Prop :=
  0 ≤ fd ∧ ∃ pos f size, OpenOn s c fd.toNat i pos f ∧ IsFile s i size ∧ Readable f ∧ (Stores prot flags → ReadWrite f) ∧
    0 ≤ off ∧ off ≤ size

/-! ## Bits -/

theorem bit_ne (f : BitVec 32) (k : Nat) (hk : k < 32) : f &&& BitVec.twoPow 32 k ≠ 0 ↔ f.getLsbD k = true := by
  constructor
  · intro h
    cases hb : f.getLsbD k with
    | true => rfl
    | false =>
      refine absurd ?_ h
      apply BitVec.eq_of_getLsbD_eq
      intro i hi
      simp only [BitVec.getLsbD_and, BitVec.getLsbD_twoPow]
      by_cases e : k = i
      · subst e; simp [hb]
      · simp [e]
  · intro h e
    have h2 : (f &&& BitVec.twoPow 32 k).getLsbD k = true := by
      simp only [BitVec.getLsbD_and, BitVec.getLsbD_twoPow, h]; simp [hk]
    rw [e] at h2; simp at h2
theorem mode_cases (f : BitVec 32) : f &&& 3#32 = 0#32 ∨ f &&& 3#32 = 1#32 ∨ f &&& 3#32 = 2#32 ∨ f &&& 3#32 = 3#32 := by
  have h : (f &&& 3#32).toNat ≤ 3 := by
    rw [BitVec.toNat_and]; exact Nat.and_le_right
  have : (f &&& 3#32).toNat = 0 ∨ (f &&& 3#32).toNat = 1 ∨ (f &&& 3#32).toNat = 2 ∨ (f &&& 3#32).toNat = 3 := by omega
  rcases this with h | h | h | h
  · exact .inl (BitVec.eq_of_toNat_eq h)
  · exact .inr (.inl (BitVec.eq_of_toNat_eq h))
  · exact .inr (.inr (.inl (BitVec.eq_of_toNat_eq h)))
  · exact .inr (.inr (.inr (BitVec.eq_of_toNat_eq h)))
theorem mode_low (f : BitVec 32) : f &&& 1#32 = (f &&& 3#32) &&& 1#32 := by rw [BitVec.and_assoc]; rfl
theorem mode_high (f : BitVec 32) : f &&& 2#32 = (f &&& 3#32) &&& 2#32 := by rw [BitVec.and_assoc]; rfl

theorem bits_shared (g : BitVec 32) : g &&& mapShared ≠ 0 ↔ g.getLsbD 0 = true := bit_ne g 0 (by decide)
theorem bits_private (g : BitVec 32) : g &&& mapPrivate ≠ 0 ↔ g.getLsbD 1 = true := bit_ne g 1 (by decide)
theorem bits_anonymous (g : BitVec 32) : g &&& mapAnonymous ≠ 0 ↔ Anonymous g := bit_ne g 5 (by decide)
theorem bits_write (g : BitVec 32) : g &&& protWrite ≠ 0 ↔ g.getLsbD 1 = true := bit_ne g 1 (by decide)

theorem bits_both (g : BitVec 32) : g &&& (mapPrivate ||| mapShared) = 0 ↔ g &&& mapPrivate = 0 ∧ g &&& mapShared = 0 := by
  have e1 : g &&& mapPrivate = (g &&& 3#32) &&& 2#32 := mode_high g
  have e2 : g &&& mapShared = (g &&& 3#32) &&& 1#32 := mode_low g
  have e3 : g &&& (mapPrivate ||| mapShared) = g &&& 3#32 := rfl
  rw [e1, e2, e3]
  rcases mode_cases g with h | h | h | h <;> rw [h] <;> decide

theorem bits_kind (g : BitVec 32) : OneKind g ↔
    ¬ g &&& (mapPrivate ||| mapShared) = 0 ∧ ¬ (g &&& mapPrivate ≠ 0 ∧ g &&& mapShared ≠ 0) := by
  rw [bits_both, ← Decidable.not_not (p := g &&& mapPrivate = 0), ← Decidable.not_not (p := g &&& mapShared = 0)]
  rw [show (¬ g &&& mapPrivate = 0) ↔ g.getLsbD 1 = true from bits_private g,
    show (¬ g &&& mapShared = 0) ↔ g.getLsbD 0 = true from bits_shared g,
    show (g &&& mapPrivate ≠ 0) ↔ g.getLsbD 1 = true from bits_private g,
    show (g &&& mapShared ≠ 0) ↔ g.getLsbD 0 = true from bits_shared g]
  unfold OneKind
  cases g.getLsbD 0 <;> cases g.getLsbD 1 <;> decide

theorem readable_low (f : BitVec 32) : Readable f ↔ f &&& 1#32 = 0 := by
  unfold Readable
  rw [mode_low]
  rcases mode_cases f with h | h | h | h <;> rw [h] <;> decide

theorem readwrite_of (f : BitVec 32) (h : Readable f) : ReadWrite f ↔ f &&& 2#32 = 2#32 := by
  unfold ReadWrite
  rw [mode_high]
  rcases h with h | h <;> rw [h] <;> decide

theorem stores_iff (prot flags : BitVec 32) : Stores prot flags ↔ flags &&& mapShared ≠ 0 ∧ prot &&& protWrite ≠ 0 := by
  rw [bits_shared, bits_write]; rfl

/-! ## C68 -/

theorem mmapFile_host {s : State} {i size : Nat} {f : BitVec 32} {addr : BitVec 64} {len : Nat} {prot flags : BitVec 32} {off : Int}
    {q : MapReq} (h : mmapFile s i size f addr len prot flags off = .host q) :
    Readable f ∧ (Stores prot flags → ReadWrite f) ∧ 0 ≤ off ∧ off ≤ size ∧ q = ⟨addr, len, prot, flags, some i, off⟩ := by
  unfold mmapFile at h
  split at h
  · cases h
  · rename_i h1
    have hr : Readable f := (readable_low f).2 (Decidable.not_not.1 h1)
    split at h
    · cases h
    · rename_i h2
      split at h
      · cases h
      · rename_i h3
        split at h
        · cases h
        · cases h
          refine ⟨hr, ?_, by omega, by omega, rfl⟩
          intro hs
          rw [stores_iff] at hs
          rw [readwrite_of f hr]
          by_cases e : f &&& 2#32 = 2#32
          · exact e
          · exact absurd ⟨hs.1, hs.2, e⟩ h2

/-- C68.  When a mapping is asked of the host, it is asked for as the program asked, and either without a file, or
on the regular file that the given descriptor has open, which was opened for reading, and for writing too if stores are to
reach the file, from an offset within the file. -/
theorem mapping_within_rights {s : State} {c : Nat} {addr : BitVec 64} {len : Nat} {prot flags : BitVec 32} {fd off : Int} {q : MapReq}
    (h : mmap s c addr len prot flags fd off = .host q) :
    q.addr = addr ∧ q.len = len ∧ q.prot = prot ∧ q.flags = flags ∧ 0 < len ∧ OneKind flags ∧
    (Anonymous flags → q.file = none ∧ q.off = 0) ∧
    (¬ Anonymous flags → q.off = off ∧ ∃ i, q.file = some i ∧ MayMap s c prot flags fd off i) := by
  unfold mmap at h
  cases hc : s.cages c with
  | none => rw [hc] at h; cases h
  | some cg =>
    rw [hc] at h
    simp only at h
    split at h
    · cases h
    rename_i h1
    split at h
    · cases h
    rename_i h2
    split at h
    · cases h
    rename_i h3
    have hk : OneKind flags := (bits_kind flags).2 ⟨h2, h3⟩
    split at h
    · rename_i h4
      cases h
      exact ⟨rfl, rfl, rfl, rfl, by omega, hk, fun _ => ⟨rfl, rfl⟩, fun hn => absurd ((bits_anonymous flags).1 h4) hn⟩
    · rename_i h4
      have hna : ¬ Anonymous flags := fun ha => h4 ((bits_anonymous flags).2 ha)
      unfold mmapFd at h
      split at h
      · cases h
      · cases h
      · rename_i i pos f hg
        split at h
        · cases h
        · rename_i nd hi
          split at h
          · cases h
          · rename_i hkind
            obtain ⟨a1, a2, a3, a4, a5⟩ := mmapFile_host h
            obtain ⟨b0, b1, b2, -⟩ := getFd_some hg
            subst a5
            refine ⟨rfl, rfl, rfl, rfl, by omega, hk, fun ha => absurd ha hna, fun _ => ⟨rfl, i, rfl, b1, pos, f, nd.size, ?_, ⟨nd, hi, hkind, rfl⟩,
              a1, a2, a3, a4⟩⟩
            exact ⟨b2, cg, hc, b0⟩
          · cases h
      · cases h

theorem mmap_kind {s : State} {c : Nat} {cg : Cage} (hc : s.cages c = some cg) {addr : BitVec 64} {len : Nat} {prot flags : BitVec 32}
    {fd off : Int} (hl : 0 < len) (hk : OneKind flags) :
    mmap s c addr len prot flags fd off =
      if Anonymous flags then .host ⟨addr, len, prot, flags, none, 0⟩ else mmapFd s cg addr len prot flags fd off := by
  obtain ⟨h2, h3⟩ := (bits_kind flags).1 hk
  unfold mmap
  rw [hc]
  simp only
  rw [if_neg (by omega), if_neg h2, if_neg h3]
  by_cases ha : Anonymous flags
  · rw [if_pos ((bits_anonymous flags).2 ha), if_pos ha]
  · rw [if_neg (fun e => ha ((bits_anonymous flags).1 e)), if_neg ha]

/-- C68.  Conversely, what a descriptor's rights and the file's size allow is asked of the host. -/
theorem mapping_granted {s : State} (h : Reach s) {c : Nat} {addr : BitVec 64} {len : Nat} {prot flags : BitVec 32} {fd off : Int} {i : Nat}
    (hl : 0 < len) (hk : OneKind flags) (hn : ¬ Anonymous flags) (hm : MayMap s c prot flags fd off i) :
    mmap s c addr len prot flags fd off = .host ⟨addr, len, prot, flags, some i, off⟩ := by
  obtain ⟨h0, pos, f, size, ho, hf, hr, hw, o1, o2⟩ := hm
  have hfo := h.inv.fobj ho hf
  obtain ⟨nd, i1, i2, i3⟩ := hf
  obtain ⟨cg, hc, hg, -⟩ := ho.get
  have e : ((fd.toNat : Nat) : Int) = fd := Int.toNat_of_nonneg h0
  rw [e] at hg
  rw [mmap_kind hc hl hk, if_neg hn]
  simp only [mmapFd, hg, i1, i2]
  unfold mmapFile
  rw [if_neg (Decidable.not_not.2 ((readable_low f).1 hr)), if_neg, if_neg (by omega), hfo]
  rintro ⟨a, b, d⟩
  exact d ((readwrite_of f hr).1 (hw ((stores_iff prot flags).2 ⟨a, b⟩)))

/-- C68.  A mapping without a file needs no descriptor. -/
theorem anonymous_granted {s : State} {c : Nat} {cg : Cage} (hc : s.cages c = some cg) {addr : BitVec 64} {len : Nat} {prot flags : BitVec 32}
    {fd off : Int} (hl : 0 < len) (hk : OneKind flags) (ha : Anonymous flags) :
    mmap s c addr len prot flags fd off = .host ⟨addr, len, prot, flags, none, 0⟩ := by
  rw [mmap_kind hc hl hk, if_pos ha]

/-- C68.  A mapping of no bytes, or not of exactly one kind, is an invalid argument. -/
theorem mapping_invalid {s : State} {c : Nat} {cg : Cage} (hc : s.cages c = some cg) {addr : BitVec 64} {len : Nat} {prot flags : BitVec 32}
    {fd off : Int} (hb : len = 0 ∨ ¬ OneKind flags) : mmap s c addr len prot flags fd off = .ret (.err .EINVAL) := by
  unfold mmap
  rw [hc]
  simp only
  by_cases h1 : len = 0
  · rw [if_pos h1]
  · rw [if_neg h1]
    have hk : ¬ OneKind flags := hb.resolve_left h1
    rw [bits_kind] at hk
    by_cases h2 : flags &&& (mapPrivate ||| mapShared) = 0
    · rw [if_pos h2]
    · rw [if_neg h2]
      by_cases h3 : flags &&& mapPrivate ≠ 0 ∧ flags &&& mapShared ≠ 0
      · rw [if_pos h3]
      · exact absurd ⟨h2, h3⟩ hk

/-- C68.  The answers when the descriptor is not one of a regular file. -/
theorem mapping_refused_kind {s : State} {c : Nat} {cg : Cage} (hc : s.cages c = some cg) {addr : BitVec 64} {len : Nat} {prot flags : BitVec 32}
    {fd : Nat} {off : Int} (hl : 0 < len) (hk : OneKind flags) (hn : ¬ Anonymous flags) (hfd : fd < 1024) :
    (cg.fds fd = none → mmap s c addr len prot flags fd off = .ret (.err .EBADF)) ∧
    (∀ d, cg.fds fd = some d → (∀ i pos f, d ≠ .file i pos f) → mmap s c addr len prot flags fd off = .ret (.err .EACCES)) ∧
    (∀ i pos f nd, OpenOn s c fd i pos f → s.fs.inodes i = some nd →
      ((∃ dev, nd.kind = .chr dev) → mmap s c addr len prot flags fd off = .ret (.err .EOPNOTSUPP)) ∧
      (nd.kind = .dir ∨ nd.kind = .sock → mmap s c addr len prot flags fd off = .ret (.err .EACCES))) := by
  rw [mmap_kind hc hl hk, if_neg hn]
  refine ⟨?_, ?_, ?_⟩
  · intro h1
    simp only [mmapFd, getFd_nat hfd, h1]
  · intro d hd hne
    cases d with
    | file i pos f => exact absurd rfl (hne i pos f)
    | _ => simp only [mmapFd, getFd_nat hfd, hd]
  · intro i pos f nd ho hi
    obtain ⟨cg', hc', hg, -⟩ := ho.get
    rw [hc] at hc'; cases hc'
    simp only [mmapFd, hg, hi]
    refine ⟨?_, ?_⟩
    · rintro ⟨dev, e⟩; rw [e]
    · rintro (e | e) <;> rw [e]

/-- C68.  The answers when the descriptor is one of a regular file but its rights or the file's size do not allow the mapping. -/
theorem mapping_refused_rights {s : State} {c : Nat} {addr : BitVec 64} {len : Nat} {prot flags : BitVec 32}
    {fd i pos size : Nat} {f : BitVec 32} {off : Int} (hl : 0 < len) (hk : OneKind flags) (hn : ¬ Anonymous flags)
    (ho : OpenOn s c fd i pos f) (hf : IsFile s i size) :
    (¬ Readable f ∨ (Stores prot flags ∧ ¬ ReadWrite f) → mmap s c addr len prot flags fd off = .ret (.err .EACCES)) ∧
    (Readable f → (Stores prot flags → ReadWrite f) → off < 0 ∨ (size : Int) < off →
      mmap s c addr len prot flags fd off = .ret (.err .ENXIO)) := by
  obtain ⟨cg, hc, hg, -⟩ := ho.get
  obtain ⟨nd, i1, i2, i3⟩ := hf
  rw [mmap_kind hc hl hk, if_neg hn]
  simp only [mmapFd, hg, i1, i2]
  unfold mmapFile
  refine ⟨?_, ?_⟩
  · intro h
    by_cases hr : Readable f
    · obtain ⟨h1, h2⟩ := h.resolve_left (fun e => e hr)
      have h3 := (stores_iff prot flags).1 h1
      rw [if_neg (Decidable.not_not.2 ((readable_low f).1 hr)), if_pos ⟨h3.1, h3.2, fun e => h2 ((readwrite_of f hr).2 e)⟩]
    · rw [if_pos (fun e => hr ((readable_low f).2 e))]
  · intro hr hw ho
    rw [if_neg (Decidable.not_not.2 ((readable_low f).1 hr)), if_neg, if_pos (by omega)]
    rintro ⟨a, b, d⟩
    exact d ((readwrite_of f hr).1 (hw ((stores_iff prot flags).2 ⟨a, b⟩)))

/-- C68.  `mmap` ends the process in no reachable state, given a descriptor number within the table.  Partial: with another number it
does (`mapping_aborts_violated`). -/
theorem mapping_returns_partial {s : State} (h : Reach s) {c : Nat} {cg : Cage} (hc : s.cages c = some cg) (addr : BitVec 64) (len : Nat)
    (prot flags : BitVec 32) {fd : Nat} (hfd : fd < 1024) (off : Int) : mmap s c addr len prot flags fd off ≠ .ret .panic := by
  by_cases hb : len = 0 ∨ ¬ OneKind flags
  · rw [mapping_invalid hc hb]; simp
  · have hl : 0 < len := by omega
    have hk : OneKind flags := Decidable.not_not.1 (fun e => hb (.inr e))
    by_cases ha : Anonymous flags
    · rw [anonymous_granted hc hl hk ha]; simp
    · obtain ⟨r1, r2, r3⟩ := mapping_refused_kind (addr := addr) (prot := prot) (off := off) hc hl hk ha hfd
      cases hd : cg.fds fd with
      | none => rw [r1 hd]; simp
      | some d =>
        cases d with
        | file i pos f =>
          have ho : OpenOn s c fd i pos f := ⟨hfd, cg, hc, hd⟩
          obtain ⟨nd, hi, -⟩ := h.inv.fs.held (h.inv.file_held hc hd)
          obtain ⟨q1, q2⟩ := r3 i pos f nd ho hi
          cases hkd : nd.kind with
          | chr dev => rw [q1 ⟨dev, hkd⟩]; simp
          | dir => rw [q2 (.inl hkd)]; simp
          | sock => rw [q2 (.inr hkd)]; simp
          | file =>
            have hf : IsFile s i nd.size := ⟨nd, hi, hkd, rfl⟩
            obtain ⟨p1, p2⟩ := mapping_refused_rights (addr := addr) (prot := prot) (off := off) hl hk ha ho hf
            by_cases e1 : ¬ Readable f ∨ (Stores prot flags ∧ ¬ ReadWrite f)
            · rw [p1 e1]; simp
            · have hr : Readable f := Decidable.not_not.1 (fun e => e1 (.inl e))
              have hw : Stores prot flags → ReadWrite f := fun hs => Decidable.not_not.1 (fun e => e1 (.inr ⟨hs, e⟩))
              by_cases e2 : off < 0 ∨ (nd.size : Int) < off
              · rw [p2 hr hw e2]; simp
              · rw [mapping_granted h hl hk ha ⟨by omega, pos, f, nd.size, ho, hf, hr, hw, by omega, by omega⟩]; simp
        | _ => rw [r2 _ hd (by intros; simp)]; simp

/-- C68.  `munmap` asks the host to take all access to exactly the given range away, by a private mapping without a file at exactly that address. -/
theorem unmap_range {s : State} {c : Nat} {cg : Cage} (hc : s.cages c = some cg) (addr : BitVec 64) (len : Nat) :
    (len = 0 → munmap s c addr len = .ret (.err .EINVAL)) ∧
    (0 < len → ∃ q, munmap s c addr len = .host q ∧ q.addr = addr ∧ q.len = len ∧ q.prot = 0#32 ∧ q.file = none ∧ OneKind q.flags ∧
      q.flags.getLsbD 0 = false ∧ Anonymous q.flags ∧ q.flags.getLsbD 4 = true) := by
  unfold munmap
  rw [hc]
  refine ⟨fun e => by simp only [if_pos e], fun e => ⟨_, by simp only [if_neg (by omega : ¬ len = 0)]; rfl, rfl, rfl, rfl, rfl, ?_, ?_, ?_, ?_⟩⟩
  · show OneKind 50#32; decide
  · show (50#32 : BitVec 32).getLsbD 0 = false; decide
  · show Anonymous 50#32; decide
  · show (50#32 : BitVec 32).getLsbD 4 = true; decide

/-- C68.  The program gets the address of its mapping if the host maps it below 2^31.  Partial: a higher address is cut to its low 32 bits
(`mapping_address_violated`), and the reason of a failure of the host is lost (`mapping_reason_violated`). -/
theorem mapping_address_partial (host : MapReq → BitVec 64) (q : MapReq) (h : (host q).toNat < 2147483648) :
    (MapOut.host q).value host = some ((host q).toNat : Int) := by
  simp only [MapOut.value, low]
  generalize host q = a at h ⊢
  rw [BitVec.toInt_eq_toNat_cond]
  have : (a.setWidth 32).toNat = a.toNat := by
    rw [BitVec.toNat_setWidth]
    exact Nat.mod_eq_of_lt (by omega)
  rw [this, if_pos (by omega)]

/-! ## C69: synchronising -/

/-- C69.  `fsync` answers for a descriptor number within the table, in a reachable state: the exact answers.  The host is asked to write out
exactly the file that the descriptor has open.  Partial: a descriptor opened for reading only cannot be synchronised (`fsync_readonly_violated`). -/
theorem fsync_answers_partial {s : State} (h : Reach s) {c : Nat} {cg : Cage} (hc : s.cages c = some cg) {fd : Nat} (hfd : fd < 1024) (ok : Bool) :
    (cg.fds fd = none → fsync s c fd ok = (.err .EBADF, none)) ∧
    (∀ d, cg.fds fd = some d → (∀ i pos f, d ≠ .file i pos f) → fsync s c fd ok = (.err .EINVAL, none)) ∧
    (∀ i pos f, OpenOn s c fd i pos f → f &&& 3#32 = 0#32 → fsync s c fd ok = (.err .EBADF, none)) ∧
    (∀ i pos f, OpenOn s c fd i pos f → f &&& 3#32 ≠ 0#32 → ((∃ size, IsFile s i size) →
        fsync s c fd ok = (if ok then .ok 0 else .err .EIO, some i)) ∧
      ((¬ ∃ size, IsFile s i size) → fsync s c fd ok = (.err .EROFS, none))) := by
  refine ⟨?_, ?_, ?_, ?_⟩
  · intro h1
    simp only [fsync, hc, getFd_nat hfd, h1]
  · intro d hd hne
    cases d with
    | file i pos f => exact absurd rfl (hne i pos f)
    | _ => simp only [fsync, hc, getFd_nat hfd, hd]
  · intro i pos f ho hm
    obtain ⟨cg', hc', hg, -⟩ := ho.get
    rw [hc] at hc'; cases hc'
    have : isRdonly f = true := by unfold isRdonly oRDWRFLAGS; simpa using hm
    simp only [fsync, hc, hg, this, if_true]
  · intro i pos f ho hm
    obtain ⟨cg', hc', hg, hd⟩ := ho.get
    rw [hc] at hc'; cases hc'
    have e : isRdonly f = false := by unfold isRdonly oRDWRFLAGS; simpa using hm
    obtain ⟨nd, hi, -⟩ := h.inv.fs.held (h.inv.file_held hc hd)
    simp only [fsync, hc, hg, e, hi, Bool.false_eq_true, if_false]
    refine ⟨?_, ?_⟩
    · rintro ⟨size, hf⟩
      rw [h.inv.fobj ho hf]
      obtain ⟨nd', h1, h2, -⟩ := hf
      rw [hi] at h1; cases h1
      simp only [Inode.isFile, h2, if_true]
    · intro hn
      have : nd.isFile = false := by
        unfold Inode.isFile
        split
        · rename_i hk; exact absurd ⟨nd.size, nd, hi, hk, rfl⟩ hn
        · rfl
      simp only [this, Bool.false_eq_true, if_false]

/-- C69.  `sync_file_range` in a reachable state: the exact answers, and the range the host is asked to write out. -/
theorem sync_range_answers {s : State} (h : Reach s) {c : Nat} {cg : Cage} (hc : s.cages c = some cg) {fd : Nat} (hfd : fd < 1024)
    (off nbytes : Int) (flags : BitVec 32) (host : RangeReq → Option Errno) :
    (cg.fds fd = none → syncRange s c fd off nbytes flags host = (.err .EBADF, none)) ∧
    (∀ d, cg.fds fd = some d → (∀ i pos f, d ≠ .file i pos f) → syncRange s c fd off nbytes flags host = (.err .EBADF, none)) ∧
    (∀ i pos f, OpenOn s c fd i pos f →
      ((¬ ∃ size, IsFile s i size) → syncRange s c fd off nbytes flags host = (.err .ESPIPE, none)) ∧
      ((∃ size, IsFile s i size) →
        (8 ≤ flags.toNat → syncRange s c fd off nbytes flags host = (.err .EINVAL, none)) ∧
        (flags.toNat < 8 → syncRange s c fd off nbytes flags host =
          (match host ⟨i, off, nbytes, flags⟩ with | none => .ok 0 | some e => .err e, some ⟨i, off, nbytes, flags⟩)))) := by
  refine ⟨?_, ?_, ?_⟩
  · intro h1
    simp only [syncRange, hc, getFd_nat hfd, h1]
  · intro d hd hne
    cases d with
    | file i pos f => exact absurd rfl (hne i pos f)
    | _ => simp only [syncRange, hc, getFd_nat hfd, hd]
  · intro i pos f ho
    obtain ⟨cg', hc', hg, hd⟩ := ho.get
    rw [hc] at hc'; cases hc'
    obtain ⟨nd, hi, -⟩ := h.inv.fs.held (h.inv.file_held hc hd)
    have hb : flags &&& ~~~7#32 ≠ 0 ↔ 8 ≤ flags.toNat := by
      constructor
      · intro hne
        apply Nat.le_of_not_lt
        intro hlt
        apply hne
        have e : flags = 0#32 ∨ flags = 1#32 ∨ flags = 2#32 ∨ flags = 3#32 ∨ flags = 4#32 ∨ flags = 5#32 ∨ flags = 6#32 ∨ flags = 7#32 := by
          have : flags.toNat = 0 ∨ flags.toNat = 1 ∨ flags.toNat = 2 ∨ flags.toNat = 3 ∨ flags.toNat = 4 ∨ flags.toNat = 5 ∨
            flags.toNat = 6 ∨ flags.toNat = 7 := by omega
          rcases this with h | h | h | h | h | h | h | h <;> simp only [← BitVec.toNat_inj, h] <;> decide
        rcases e with rfl | rfl | rfl | rfl | rfl | rfl | rfl | rfl <;> decide
      · intro hle he
        have h7 : flags = flags &&& 7#32 := by
          have : flags = flags &&& (~~~7#32 ||| 7#32) := by
            rw [show (~~~7#32 ||| 7#32 : BitVec 32) = BitVec.allOnes 32 from by decide, BitVec.and_allOnes]
          rw [BitVec.and_or_distrib_left, he] at this
          simpa using this
        have : flags.toNat ≤ 7 := by
          rw [h7, BitVec.toNat_and]; exact Nat.and_le_right
        omega
    simp only [syncRange, hc, hg, hi]
    refine ⟨?_, ?_⟩
    · intro hn
      have : nd.isFile = false := by
        unfold Inode.isFile
        split
        · rename_i hk; exact absurd ⟨nd.size, nd, hi, hk, rfl⟩ hn
        · rfl
      simp only [this, Bool.false_eq_true, if_false]
    · rintro ⟨size, hf⟩
      rw [h.inv.fobj ho hf]
      obtain ⟨nd', h1, h2, -⟩ := hf
      rw [hi] at h1; cases h1
      simp only [Inode.isFile, h2, if_true]
      refine ⟨fun hle => by rw [if_pos (hb.2 hle)], fun hlt => ?_⟩
      rw [if_neg (fun e => absurd (hb.1 e) (by omega))]
      cases host ⟨i, off, nbytes, flags⟩ <;> rfl

/-! ## C69: status -/

/-- C69.  `statfs` succeeds on exactly the paths on which `stat` does, with the same error otherwise. -/
theorem statfs_like_stat {s : State} {c : Nat} (p : Str) (ht : s.cages c ≠ none) :
    (statfs s c p).1 = (step s c (.stat p)).2.ret := by
  cases hc : s.cages c with
  | none => exact absurd hc ht
  | some cg =>
    simp only [statfs, step, hc, Fs.stat]
    repeat' split
    all_goals simp_all

/-- C69.  `fstatfs` in a reachable state: the exact answers. -/
theorem fstatfs_answers {s : State} (h : Reach s) {c : Nat} {cg : Cage} (hc : s.cages c = some cg) {fd : Nat} (hfd : fd < 1024) :
    (fstatfs s c fd = (.ok 0, some fsData) ∧ ∃ i pos f, OpenOn s c fd i pos f) ∨
    (fstatfs s c fd = (.err .EBADF, none) ∧ ¬ ∃ i pos f, OpenOn s c fd i pos f) := by
  have key : ∀ i pos f, OpenOn s c fd i pos f → cg.fds fd = some (.file i pos f) := by
    rintro i pos f ⟨-, cg', hc', hd⟩
    rw [hc] at hc'; cases hc'; exact hd
  cases hd : cg.fds fd with
  | none =>
    refine .inr ⟨by simp only [fstatfs, hc, getFd_nat hfd, hd], ?_⟩
    rintro ⟨i, pos, f, ho⟩
    have := key i pos f ho
    rw [hd] at this; cases this
  | some d =>
    cases d with
    | file i pos f =>
      obtain ⟨nd, hi, -⟩ := h.inv.fs.held (h.inv.file_held hc hd)
      exact .inl ⟨by simp only [fstatfs, hc, getFd_nat hfd, hd, hi], i, pos, f, hfd, cg, hc, hd⟩
    | _ =>
      refine .inr ⟨by simp only [fstatfs, hc, getFd_nat hfd, hd], ?_⟩
      rintro ⟨i, pos, f, ho⟩
      have := key i pos f ho
      rw [hd] at this; cases this

/-- C69.  All files are in one file system: every successful `statfs` and `fstatfs` tells the same. -/
theorem one_file_system {s s' : State} {c c' : Nat} {p : Str} {fd : Int} {x y : FsData} (h1 : (statfs s c p).2 = some x)
    (h2 : (fstatfs s' c' fd).2 = some y) : x = y := by
  have e1 : x = fsData := by
    unfold statfs at h1
    repeat' split at h1
    all_goals first | (cases h1; done) | (cases h1; rfl)
  have e2 : y = fsData := by
    unfold fstatfs at h2
    repeat' split at h2
    all_goals first | (cases h2; done) | (cases h2; rfl)
  rw [e1, e2]

/-! ## C69: control -/

/-- C69.  `ioctl` with `FIONBIO` (21537) on a socket switches exactly the non-blocking bit (2048) of that descriptor, and leaves all other
descriptors, all files and all pipes as they are.  Partial: copies of the descriptor do not follow (`ioctl_copies_violated`). -/
theorem ioctl_nonblocking_partial {s : State} {c fd : Nat} {cg : Cage} {f : BitVec 32} (hc : s.cages c = some cg) (hfd : fd < 1024)
    (hd : cg.fds fd = some (.sock f)) (v : Int) :
    (ioctl s c fd 21537#32 (some v)).2 = .ok 0 ∧
    (∃ f', slot (ioctl s c fd 21537#32 (some v)).1 c fd = some (.sock f') ∧ ∀ k, k < 32 → f'.getLsbD k = if k = 11 then decide (v ≠ 0) else f.getLsbD k) ∧
    (∀ c' fd', (c' ≠ c ∨ fd' ≠ fd) → slot (ioctl s c fd 21537#32 (some v)).1 c' fd' = slot s c' fd') ∧
    (ioctl s c fd 21537#32 (some v)).1.fs = s.fs ∧ (ioctl s c fd 21537#32 (some v)).1.pipes = s.pipes := by
  have hnb : oNONBLOCK = BitVec.twoPow 32 11 := by decide
  have other : ∀ d' c' fd', (c' ≠ c ∨ fd' ≠ fd) → slot (s.setFd c fd d') c' fd' = slot s c' fd' := by
    intro d' c' fd' hne
    unfold slot
    rw [setFd_at hc]
    by_cases e : c' = c
    · subst e
      rw [upd_same, hc]
      exact upd_ne _ _ (hne.resolve_left (fun h => h rfl))
    · rw [upd_ne _ _ e]
  have same : ∀ d', slot (s.setFd c fd d') c fd = d' := by
    intro d'
    unfold slot
    rw [setFd_at hc, upd_same]
    exact upd_same _ _ _
  simp only [ioctl, hc, getFd_nat hfd, hd, if_true, Int.toNat_natCast]
  by_cases hv : v = 0
  · rw [if_pos hv]
    refine ⟨rfl, ⟨_, same _, ?_⟩, other _, ?_, ?_⟩
    · intro k hk
      simp only [hnb, BitVec.getLsbD_and, BitVec.getLsbD_not, BitVec.getLsbD_twoPow]
      by_cases e : k = 11
      · subst e; simp [hv]
      · simp [e, hk]; intro; omega
    · simp only [State.setFd, hc, State.setCage]
    · simp only [State.setFd, hc, State.setCage]
  · rw [if_neg hv]
    refine ⟨rfl, ⟨_, same _, ?_⟩, other _, ?_, ?_⟩
    · intro k hk
      simp only [hnb, BitVec.getLsbD_or, BitVec.getLsbD_twoPow]
      by_cases e : k = 11
      · subst e; simp [hv]
      · simp [e]; intro; omega
    · simp only [State.setFd, hc, State.setCage]
    · simp only [State.setFd, hc, State.setCage]

/-- C69.  All other uses of `ioctl` change nothing, and fail, but for `FIOASYNC` (21586), which does nothing and reports success. -/
theorem ioctl_others {s : State} {c fd : Nat} {cg : Cage} (hc : s.cages c = some cg) (hfd : fd < 1024) (request : BitVec 32) (arg : Option Int) :
    (cg.fds fd = none → ioctl s c fd request arg = (s, .err .EBADF)) ∧
    (∀ d, cg.fds fd = some d →
      (request = 21537#32 → arg = none → ioctl s c fd request arg = (s, .err .EFAULT)) ∧
      (request = 21537#32 → arg ≠ none → (∀ f, d ≠ .sock f) → ioctl s c fd request arg = (s, .err .ENOTTY)) ∧
      (request = 21586#32 → ioctl s c fd request arg = (s, .ok 0)) ∧
      (request ≠ 21537#32 → request ≠ 21586#32 → ioctl s c fd request arg = (s, .err .EINVAL))) := by
  refine ⟨fun h1 => by simp only [ioctl, hc, getFd_nat hfd, h1], fun d hd => ⟨?_, ?_, ?_, ?_⟩⟩
  · rintro rfl rfl
    simp only [ioctl, hc, getFd_nat hfd, hd, if_true]
  · rintro rfl ha hne
    cases arg with
    | none => exact absurd rfl ha
    | some v =>
      cases d with
      | sock f => exact absurd rfl (hne f)
      | _ => simp only [ioctl, hc, getFd_nat hfd, hd, if_true]
  · rintro rfl
    simp only [ioctl, hc, getFd_nat hfd, hd, if_neg (by decide : ¬ (21586#32 : BitVec 32) = 21537#32), if_true]
  · intro e1 e2
    simp only [ioctl, hc, getFd_nat hfd, hd, if_neg e1, if_neg e2]

/-! ## C69: the name of the machine -/

/-- C69.  `gethostname` with room for the name and its end stores `Lind` and a zero byte; it never stores more than it was given room for, and
a negative length is an invalid argument.  Partial: with less room it reports success without storing the end (`hostname_cut_violated`). -/
theorem hostname_partial (len : Int) :
    (len < 0 → gethostname len = (.err .EINVAL, [])) ∧
    (5 ≤ len → gethostname len = (.ok 0, "Lind".toUTF8.toList ++ [0])) ∧
    (0 ≤ len → ((gethostname len).2.length : Int) ≤ len) := by
  have e0 : "Lind".toUTF8.toList ++ [0] = [76, 105, 110, 100, 0] := by decide +kernel
  refine ⟨fun h => by unfold gethostname; rw [if_pos h], fun h => ?_, fun h => ?_⟩
  · unfold gethostname
    rw [if_neg (by omega), e0]
    simp only [List.length_cons, List.length_nil]
    rw [if_neg (by omega)]
    rfl
  · unfold gethostname
    rw [if_neg (by omega)]
    simp only [List.length_take, List.length_cons, List.length_nil]
    split <;> omega

end Verif.Misc
