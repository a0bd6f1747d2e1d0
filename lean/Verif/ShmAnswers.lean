import Verif.ShmProps

/-! What shmget answers and does, as a table; what the calls on a segment that is not there answer. -/

namespace Verif.Shm

theorem creat_bit (f : BitVec 32) : f &&& ipcCreat = 0 ↔ f.getLsbD 9 = false := by
  have h : ipcCreat = BitVec.twoPow 32 9 := by decide
  rw [h, BitVec.and_twoPow]
  cases f.getLsbD 9 <;> simp <;> decide

theorem both_bits (f : BitVec 32) :
    f &&& (ipcCreat ||| ipcExcl) = ipcCreat ||| ipcExcl ↔ f.getLsbD 9 = true ∧ f.getLsbD 10 = true := by
  have h : ipcCreat ||| ipcExcl = BitVec.twoPow 32 9 ||| BitVec.twoPow 32 10 := by decide
  rw [h, BitVec.and_or_distrib_left, BitVec.and_twoPow, BitVec.and_twoPow]
  cases f.getLsbD 9 <;> cases f.getLsbD 10 <;> simp <;> decide

/-- What `shmget` is to answer: bit 9 of the flags is `IPC_CREAT`, bit 10 `IPC_EXCL`; `had` is the segment of the key. -/
def getSpec (had : Option Nat) (fresh : Nat) (key : Int) (size : Nat) (flg : BitVec 32) : Ret :=
  if key = 0 then .err .ENOENT
  else match had with
  | some id => if flg.getLsbD 9 ∧ flg.getLsbD 10 then .err .EEXIST else .ok id
  | none =>
    if flg.getLsbD 9 = false then .err .ENOENT
    else if size % 4294967296 = 0 ∨ 4278190079 < size % 4294967296 then .err .EINVAL
    else .ok fresh

/-- C34.  What `shmget` answers, for every key, size and flags: ENOENT for the private key 0 and for a key without segment when
IPC_CREAT is not given, EEXIST for a key with a segment when IPC_CREAT and IPC_EXCL are both given, EINVAL for a size (as a 32-bit
number) of 0 or above the largest; else the segment of the key, or a new one. -/
theorem get_answer {s : State} {c : Nat} (hc : s.rev c ≠ none) (key : Int) (size : Nat) (flg : BitVec 32) :
    (step s c (.get key size flg)).2 = .r (getSpec (s.keys key) s.next key size flg) := by
  rcases Option.eq_none_or_eq_some (s.rev c) with h | ⟨rv, h⟩
  · exact absurd h hc
  unfold step
  rw [h]
  simp only [shmget, getSpec]
  by_cases h0 : key = 0
  · simp [h0]
  rw [if_neg h0, if_neg h0]
  cases hk : s.keys key with
  | some id =>
    simp only [both_bits]
    split <;> rfl
  | none =>
    simp only [creat_bit, shmMin, shmMax]
    split
    · rfl
    · have : (size % 2 ^ 32 < 1 ∨ size % 2 ^ 32 > 4278190079) ↔ (size % 4294967296 = 0 ∨ 4278190079 < size % 4294967296) := by
        omega
      simp only [this]
      split <;> rfl

theorem mode_bits (f : BitVec 32) : ((f &&& 0x1FF).setWidth 16 : BitVec 16).toNat = f.toNat % 512 := by
  have h : (0x1FF : BitVec 32).toNat = 2 ^ 9 - 1 := by decide
  rw [BitVec.toNat_setWidth, BitVec.toNat_and, h, Nat.and_two_pow_sub_one_eq_mod]
  have : f.toNat % 2 ^ 9 < 2 ^ 9 := Nat.mod_lt _ (by decide)
  omega

/-- C34.  What `shmget` does: nothing, unless it answers with a new segment; then the segment is the one of the key from now on,
has the size asked for, the low nine bits of the flags as mode, no attachments and no mark, and no other segment or key
changes. -/
theorem get_effect {s : State} {c : Nat} (hc : s.rev c ≠ none) (key : Int) (size : Nat) (flg : BitVec 32) :
    ((step s c (.get key size flg)).1 = s ∧
      ((step s c (.get key size flg)).2 = .r (.ok s.next) → s.keys key = some s.next)) ∨
    (key ≠ 0 ∧ s.keys key = none ∧ (step s c (.get key size flg)).2 = .r (.ok s.next) ∧
      ∃ g, (step s c (.get key size flg)).1.segs s.next = some g ∧ g.key = key ∧ g.size = size ∧
        g.mode.toNat = flg.toNat % 512 ∧ g.nattch = 0 ∧ g.rmid = false ∧ (∀ x, g.att x = none) ∧
        (step s c (.get key size flg)).1.keys key = some s.next ∧
        (step s c (.get key size flg)).1.next = s.next + 1 ∧
        (∀ id, id ≠ s.next → (step s c (.get key size flg)).1.segs id = s.segs id) ∧
        (∀ key', key' ≠ key → (step s c (.get key size flg)).1.keys key' = s.keys key') ∧
        (step s c (.get key size flg)).1.rev = s.rev) := by
  rcases Option.eq_none_or_eq_some (s.rev c) with h | ⟨rv, h⟩
  · exact absurd h hc
  have hs : step s c (.get key size flg) = shmget s key size flg := by
    unfold step; rw [h]
  rw [hs]
  unfold shmget
  by_cases h0 : key = 0
  · simp [h0]
  rw [if_neg h0]
  cases hk : s.keys key with
  | some id =>
    left
    simp only
    split
    · simp
    · simp
      omega
  | none =>
    simp only
    split
    · left; simp
    · split
      · left; simp
      · right
        refine ⟨h0, trivial, rfl, _, upd_same _ _ _, rfl, rfl, mode_bits flg, rfl, rfl, fun _ => rfl, ?_, rfl,
          fun id hid => upd_ne _ _ hid, ?_, rfl⟩
        · simp [updK]
        · intro k' hk'
          simp [updK, hk']

/-- C34.  A segment that is not there: `shmat`, `shmctl` answer EINVAL, and `shmdt` does for an address at which nothing is
attached; nothing changes. -/
theorem nothing_there {s : State} {c id : Nat} {rv : List (Nat × Nat)} (hc : s.rev c = some rv) (hid : s.segs id = none) (addr : Nat)
    (host : Bool) :
    step s c (.at id addr host) = (s, .r (.err .EINVAL)) ∧ step s c (.rmid id) = (s, .r (.err .EINVAL)) ∧
      step s c (.stat id) = (s, .r (.err .EINVAL)) ∧
      ((∀ p ∈ rv, p.1 ≠ addr) → step s c (.dt addr) = (s, .r (.err .EINVAL))) := by
  refine ⟨?_, ?_, ?_, ?_⟩
  · unfold step; rw [hc]; simp [shmat, hid]
  · unfold step; rw [hc]; simp [rmid, hid]
  · unfold step; rw [hc]; simp [stat, hid]
  · intro hno
    have : findAddr addr rv = none := by
      induction rv generalizing s with
      | nil => rfl
      | cons u us ih =>
        unfold findAddr
        rw [if_neg (hno u (by simp))]
        have hus : ∀ p ∈ us, p.1 ≠ addr := fun p hp => hno p (by simp [hp])
        clear hc
        have : findAddr addr us = none := by
          exact ih (s := { s with rev := upd s.rev c (some us) }) (upd_same _ _ _) hid hus
        simp [this]
    unfold step; rw [hc]; simp [shmdt, this]

/-! A new segment, the same again, and the refusals. -/

example : init.rev 1 ≠ none ∧ (step init 1 (.get 7 4096 0x380)).2 = .r (.ok 1) ∧
    (step (step init 1 (.get 7 4096 0x380)).1 1 (.get 7 1 0)).2 = .r (.ok 1) ∧
    (step (step init 1 (.get 7 4096 0x380)).1 1 (.get 7 1 0x600)).2 = .r (.err .EEXIST) ∧
    (step init 1 (.get 7 4096 0x180)).2 = .r (.err .ENOENT) ∧
    (step init 1 (.get 7 4294967296 0x380)).2 = .r (.err .EINVAL) := by decide +kernel

example : (step init 1 (.get 7 4096 0x380)).1.rev 1 = some [] ∧ (step init 1 (.get 7 4096 0x380)).1.segs 5 = none :=
  ⟨by decide +kernel, rfl⟩

end Verif.Shm
