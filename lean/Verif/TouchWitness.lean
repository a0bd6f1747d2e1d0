import Verif.TouchProps

/-!
# Witnesses for C97
-/

namespace Verif.Touch
open Verif.Dispatch

/-- A system in which calls get through, over a given memory. -/
def world (m : Nat → Nat) : World where
  mem := m
  utf8 := fun _ => true
  early := false
  amount := 100
  peeked := 3
  stream := true
  ret := 0
  addr := .v4 2 80 [127, 0, 0, 1] [0, 0, 0, 0, 0, 0, 0, 0]
  obj := .pipe
  steps := 2
  ready := [true, false, true, true]
  cwd := 5
  ifs := 30
  ents := [([46], 1), ([97, 98], 7)]
  pos := 0
  segment := 4096
  attached := [(0x7f0000100000#64, 8192)]

/-- Memory with a Unix socket address at 1000, an `iovec` array at 2000 (12 bytes at 3000, then 5
bytes at 4000) and the number 16 at 5000. -/
def memory : Nat → Nat := fun a =>
  if a = 1000 then 1
  else if a = 2000 then 184 else if a = 2001 then 11 else if a = 2008 then 12
  else if a = 2016 then 160 else if a = 2017 then 15 else if a = 2024 then 5
  else if a = 5000 then 16
  else 0

/-! ## The hypotheses are met, and the calls do touch memory -/

-- `read` of 8 bytes on a socket that kept 3 from a peek
example : touches (world memory) 12 [4#64, 3000#64, 8#64] = [.write 3000 3, .write 3003 5] ∧
    given memory 4096 [] 12 [4#64, 3000#64, 8#64] = [.out 3000 8] ∧
    Careful memory [] 12 [4#64, 3000#64, 8#64] := ⟨by decide +kernel, by decide +kernel, trivial⟩

-- `writev` of two buffers
example : touches (world memory) 170 [4#64, 2000#64, 2#64] =
    [.read 2000 16, .read 3000 12, .read 2016 16, .read 4000 5] ∧
    given memory 4096 [] 170 [4#64, 2000#64, 2#64] = [.inn 2000 32, .inn 3000 12, .inn 4000 5] ∧
    Careful memory [] 170 [4#64, 2000#64, 2#64] :=
  ⟨by decide +kernel, by decide +kernel, by show (0 : Int) ≤ sint 2#64; decide +kernel⟩

-- `accept` with room for 16 bytes of address
example : touches (world memory) 40 [4#64, 6000#64, 5000#64] =
    [.read 5000 4, .write 6000 16, .write 5000 4] ∧
    given memory 4096 [] 40 [4#64, 6000#64, 5000#64] = [.out 5000 4, .out 6000 16] :=
  ⟨by decide +kernel, by decide +kernel⟩

-- `bind` with a complete Unix address, `epoll_wait` with room for two events, `getdents`, `shmdt`
example : touches (world memory) 33 [4#64, 1000#64, 110#64] = [.read 1000 2, .read 1000 110] ∧
    FullAddr memory 1000#64 110#64 := ⟨by decide +kernel, by decide +kernel, by decide +kernel⟩

example : touches (world memory) 58 [4#64, 6000#64, 2#64, 0#64] =
    [.write 6000 8, .write 6008 8] := by decide +kernel

example : touches (world memory) 23 [4#64, 6000#64, 64#64] =
    [.write 6000 18, .write 6018 6, .write 6024 18, .write 6042 6] := by decide +kernel

example : touches (world memory) 64 [0x7f0000100000#64] = [.map 0x7f0000100000 8192] ∧
    Careful memory (world memory).attached 64 [0x7f0000100000#64] := by
  refine ⟨by decide +kernel, ?_⟩
  intro p hp _
  rw [List.mem_singleton.1 hp]
  rfl

-- the arguments of a null-safe `writev`
example : (0 : Int) ≤ sint 2#64 ∧ ∀ i < (sint 2#64).toNat,
    peek memory (2000 + 16 * i + 8) 8 ≠ 0 → peek memory (2000 + 16 * i) 8 ≠ 0 := by decide +kernel

-- a refused `stat`: the buffer is null
example : (9, [CType.str, .ptr]) ∈ prototypes ∧
    touches (world memory) 9 [1000#64, 0#64] = [.str 1000] := by decide +kernel

/-! ## Where the code goes too far -/

/-- `bind` with a Unix address of 16 bytes, the least length that is accepted, reads 110 bytes. -/
theorem address_read_violated :
    ∃ x ∈ touches (world memory) 33 [4#64, 1000#64, 16#64],
      ∀ r ∈ given memory 4096 [] 33 [4#64, 1000#64, 16#64], ¬ Inside x r := by
  refine ⟨.read 1000 110, by decide +kernel, by decide +kernel⟩

/-- `connect` with an address length of zero reads the two bytes of the family field before it
refuses. -/
theorem family_read_violated :
    ∃ x ∈ touches (world memory) 38 [4#64, 1000#64, 0#64],
      ∀ r ∈ given memory 4096 [] 38 [4#64, 1000#64, 0#64], ¬ Inside x r := by
  refine ⟨.read 1000 2, by decide +kernel, by decide +kernel⟩

/-- `writev` with a count of -1 on a pipe, for which the manual asks `EINVAL`, takes the array to have
2^64 - 1 elements and reads buffers from memory behind it. -/
theorem negative_count_violated :
    sint 0xffffffff#64 = -1 ∧
    touches (world memory) 170 [4#64, 2000#64, 0xffffffff#64] =
      [.read 2000 16, .read 3000 12, .read 2016 16, .read 4000 5] ∧
    given memory 4096 [] 170 [4#64, 2000#64, 0xffffffff#64] = [] := by
  refine ⟨by decide +kernel, ?_, by decide +kernel⟩
  rw [touches_plain (ks := [.int, .ptr, .int]) rfl]
  have hm : min 2 (usizeOf 0xffffffff#32) = 2 := by decide +kernel
  have h : writevAccs (world memory) 2000 0xffffffff#32 =
      (List.range (min 2 (usizeOf 0xffffffff#32))).flatMap (iovAcc (world memory) 2000) := rfl
  have h2 : (List.range 2).flatMap (iovAcc (world memory) 2000) =
      [.read 2000 16, .read 3000 12, .read 2016 16, .read 4000 5] := by decide +kernel
  show [] ++ writevAccs (world memory) 2000 0xffffffff#32 = _
  rw [List.nil_append, h, hm, h2]

/-- `shmdt` finds an attachment by the low 32 bits of the address: given an address 4 GB above an
attached one it maps 8192 bytes there anew, where the caller has nothing attached. -/
theorem detach_alias_violated :
    touches (world memory) 64 [0x7f0100100000#64] = [.map 0x7f0100100000 8192] ∧
    given memory 4096 (world memory).attached 64 [0x7f0100100000#64] = [] := by
  refine ⟨by decide +kernel, by decide +kernel⟩

/-- A `writev` buffer at the null address is used as it is. -/
theorem null_buffer_violated (n : Nat) (hn : n ≠ 0) :
    let w := world (fun a => if a = 2008 then n else 0)
    Acc.read 0 n ∈ touches w 170 [4#64, 2000#64, 1#64] ∧ AtNull (.read 0 n) := by
  intro w
  refine ⟨?_, rfl, hn⟩
  have h : touches w 170 [4#64, 2000#64, 1#64] =
      [.read 2000 16, .read (num w.mem 2000 8) (num w.mem 2008 8)] := rfl
  have h1 : num w.mem 2000 8 = 0 := rfl
  have h2 : num w.mem 2008 8 = n := by
    show n + 256 * 0 = n
    omega
  rw [h, h1, h2]
  exact List.mem_cons_of_mem _ List.mem_cons_self

/-- `quick_read` with a null buffer writes through it when the object has bytes to give. -/
theorem quick_null_violated :
    ∃ x ∈ quick { world memory with peeked := 0 } 12 4#32 0#64 8#64, AtNull x :=
  ⟨.write 0 8, by decide +kernel, by constructor <;> decide⟩

end Verif.Touch
