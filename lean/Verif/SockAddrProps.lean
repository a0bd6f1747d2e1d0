import Verif.SockAddr

/-!
# Socket addresses at the call boundary: C60
-/

namespace Verif.SockAddr

/-! ## Specification -/

/-- Address families of Linux. -/
inductive Family
  | unix | inet | inet6
  deriving DecidableEq

/-- Their numbers (`AF_UNIX`, `AF_INET`, `AF_INET6` in `<sys/socket.h>`). -/
def Family.number : Family → Nat
  | .unix => 1
  | .inet => 2
  | .inet6 => 10

/-- Bytes of the structure of a family (`struct sockaddr_un`, `_in`, `_in6`). -/
def Family.size : Family → Nat
  | .unix => 110
  | .inet => 16
  | .inet6 => 28

/-- A well-formed address value: every field has its width, bytes are bytes and the family is
the one of the structure. -/
def Ok : Addr → Prop
  | .unix f p => f = 1 ∧ p.length = 108 ∧ ∀ b ∈ p, b < 256
  | .v4 f p a z => f = 2 ∧ p < 65536 ∧ a.length = 4 ∧ z.length = 8 ∧ (∀ b ∈ a, b < 256)
      ∧ ∀ b ∈ z, b < 256
  | .v6 f p w a s => f = 10 ∧ p < 65536 ∧ w.length = 4 ∧ a.length = 16 ∧ s.length = 4
      ∧ (∀ b ∈ w, b < 256) ∧ (∀ b ∈ a, b < 256) ∧ ∀ b ∈ s, b < 256

/-- Memory that holds a list of bytes at its start. -/
def Holds (m : Mem) (bs : List Nat) : Prop := ∀ i, i < bs.length → m i = bs.getD i 0

/-- Two memories agree on the first `n` bytes. -/
def Agree (n : Nat) (m m' : Mem) : Prop := ∀ i, i < n → m i = m' i

/-! ## Lemmas -/

theorem bytesAt_length (m : Mem) (off n : Nat) : (bytesAt m off n).length = n := by
  induction n generalizing off with
  | zero => rfl
  | succ n ih => simp [bytesAt, ih]

theorem bytesAt_eq {m : Mem} {off : Nat} {bs : List Nat}
    (h : ∀ i, i < bs.length → m (off + i) = bs.getD i 0) : bytesAt m off bs.length = bs := by
  induction bs generalizing off with
  | nil => rfl
  | cons b bs ih =>
    simp only [List.length_cons, bytesAt]
    have h0 := h 0 (by simp)
    simp at h0
    rw [h0, ih]
    intro i hi
    have := h (i + 1) (by simp; omega)
    simp at this
    rw [show off + 1 + i = off + (i + 1) by omega]
    simpa using this

theorem bytesAt_congr {m m' : Mem} {off n : Nat} (h : ∀ i, i < off + n → m i = m' i) :
    bytesAt m off n = bytesAt m' off n := by
  induction n generalizing off with
  | zero => rfl
  | succ n ih =>
    simp only [bytesAt]
    rw [h off (by omega), ih (off := off + 1) (fun i hi => h i (by omega))]

theorem layout_length {a : Addr} (h : Ok a) : (layout a).length = sizeOf a := by
  cases a <;> simp [Ok] at h <;> simp [layout, sizeOf, u16Bytes, sizeUnix, sizeV4, sizeV6, h]

theorem u16_bytes {n : Nat} (h : n < 65536) : n % 256 + 256 * (n / 256 % 256) = n := by omega

theorem holds_part {m : Mem} {pre bs post : List Nat} (h : Holds m (pre ++ bs ++ post)) :
    bytesAt m pre.length bs.length = bs := by
  apply bytesAt_eq
  intro i hi
  rw [h _ (by simp; omega)]
  simp only [List.getD_eq_getElem?_getD, List.append_assoc]
  rw [List.getElem?_append_right (by omega), Nat.add_sub_cancel_left,
    List.getElem?_append_left hi]

theorem holds_u16 {m : Mem} {pre post : List Nat} {n : Nat} (hn : n < 65536)
    (h : Holds m (pre ++ u16Bytes n ++ post)) : u16At m pre.length = n := by
  have := holds_part h
  simp only [u16Bytes, List.length_cons, List.length_nil, bytesAt, List.cons.injEq] at this
  simp only [u16At]
  rw [this.1, this.2.1]
  exact u16_bytes hn

/-! ## Reading an address -/

/-- A Unix or IPv4 address that lies in the caller's memory reaches the call unchanged, field
for field, for every address and every length from the structure's size (Unix: from 16 up to
it). -/
theorem read_exact_partial (a : Addr) (h : Ok a) (m : Mem) (hm : Holds m (layout a)) (len : Nat)
    (hlen : match a with
      | .unix .. => 16 ≤ len ∧ len ≤ 110
      | .v4 .. => 16 ≤ len
      | .v6 .. => False) :
    getSockaddr (some m) len = .ok a := by
  cases a with
  | unix f p =>
    obtain ⟨rfl, hp, _⟩ := h
    have e0 : u16At m 0 = 1 := holds_u16 (pre := []) (post := p) (by omega) (by simpa [layout] using hm)
    have e1 : bytesAt m 2 108 = p := by
      have := holds_part (m := m) (pre := u16Bytes 1) (bs := p) (post := [])
        (by simpa [layout] using hm)
      simpa [u16Bytes, hp] using this
    simp only [getSockaddr, e0, e1, if_true, sizeUnix]
    rw [if_neg (by omega)]
  | v4 f p a z =>
    obtain ⟨rfl, hp, ha, hz, _, _⟩ := h
    have e0 : u16At m 0 = 2 := holds_u16 (pre := []) (post := u16Bytes p ++ a ++ z) (by omega)
      (by simpa [layout] using hm)
    have e1 : u16At m 2 = p := holds_u16 (pre := u16Bytes 2) (post := a ++ z) hp
      (by simpa [layout] using hm)
    have e2 : bytesAt m 4 4 = a := by
      have := holds_part (m := m) (pre := u16Bytes 2 ++ u16Bytes p) (bs := a) (post := z)
        (by simpa [layout] using hm)
      simpa [u16Bytes, ha] using this
    have e3 : bytesAt m 8 8 = z := by
      have := holds_part (m := m) (pre := u16Bytes 2 ++ u16Bytes p ++ a) (bs := z) (post := [])
        (by simpa [layout] using hm)
      simpa [u16Bytes, ha, hz] using this
    simp only [getSockaddr, e0, e1, e2, e3, sizeV4]
    rw [if_neg (by omega), if_pos trivial, if_neg (by omega)]
  | v6 => exact absurd hlen id

example : Ok (.v4 2 8080 [127, 0, 0, 1] [0, 0, 0, 0, 0, 0, 0, 0])
    ∧ Holds (fun i => [2, 0, 144, 31, 127, 0, 0, 1, 0, 0, 0, 0, 0, 0, 0, 0].getD i 99)
        (layout (.v4 2 8080 [127, 0, 0, 1] [0, 0, 0, 0, 0, 0, 0, 0])) := by
  refine ⟨by simp [Ok], ?_⟩
  have h : ∀ i : Fin 16, [2, 0, 144, 31, 127, 0, 0, 1, 0, 0, 0, 0, 0, 0, 0, 0].getD i.val 99
      = (layout (.v4 2 8080 [127, 0, 0, 1] [0, 0, 0, 0, 0, 0, 0, 0])).getD i.val 0 := by decide
  intro i hi
  exact h ⟨i, hi⟩

/-- An IPv6 address as every Linux program writes it is refused, whatever its length. -/
theorem read_inet6_violated (a : Addr) (h : Ok a) (hv : ∃ f p w b s, a = .v6 f p w b s)
    (m : Mem) (hm : Holds m (layout a)) (len : Nat) :
    getSockaddr (some m) len = .error .EOPNOTSUPP := by
  obtain ⟨f, p, w, b, s, rfl⟩ := hv
  obtain ⟨rfl, _⟩ := h
  have e0 : u16At m 0 = 10 := holds_u16 (pre := []) (post := u16Bytes p ++ w ++ b ++ s) (by omega)
    (by simpa [layout] using hm)
  simp [getSockaddr, e0]

example : Ok (.v6 10 80 [0, 0, 0, 0] [0, 0, 0, 0, 0, 0, 0, 0, 0, 0, 0, 0, 0, 0, 0, 1] [0, 0, 0, 0]) :=
  by simp [Ok]

/-- The null pointer is `EFAULT`, an unknown family `EOPNOTSUPP`, a known one with too short
(Unix: or too long) a length `EINVAL`; nothing else is refused. -/
theorem read_errors (ptr : Option Mem) (len : Nat) (e : Err) :
    getSockaddr ptr len = .error e ↔
      (ptr = none ∧ e = .EFAULT)
      ∨ (∃ m, ptr = some m ∧
          ((e = .EINVAL ∧ (u16At m 0 = 1 ∧ ¬ (16 ≤ len ∧ len ≤ 110) ∨ u16At m 0 = 2 ∧ len < 16
              ∨ u16At m 0 = 30 ∧ len < 28))
          ∨ (e = .EOPNOTSUPP ∧ u16At m 0 ≠ 1 ∧ u16At m 0 ≠ 2 ∧ u16At m 0 ≠ 30))) := by
  cases ptr with
  | none =>
    simp only [getSockaddr, Rd.error.injEq]
    constructor
    · rintro rfl; exact .inl ⟨trivial, rfl⟩
    · rintro (⟨_, rfl⟩ | ⟨m, h, _⟩)
      · rfl
      · simp at h
  | some m =>
    simp only [getSockaddr, sizeUnix, sizeV4, sizeV6, Option.some.injEq, exists_eq_left',
      reduceCtorEq, false_and, false_or]
    generalize u16At m 0 = f
    by_cases h1 : f = 1
    · subst h1
      by_cases hl : len < 16 ∨ len > 110
      · simp [hl]; constructor
        · rintro rfl; refine ⟨rfl, ?_⟩; omega
        · rintro ⟨rfl, _⟩; rfl
      · simp [hl]; omega
    · by_cases h2 : f = 2
      · subst h2
        by_cases hl : len < 16
        · simp [hl]; exact ⟨fun h => h.symm, fun h => h.symm⟩
        · simp [hl]
      · by_cases h3 : f = 30
        · subst h3
          by_cases hl : len < 28
          · simp [hl]; exact ⟨fun h => h.symm, fun h => h.symm⟩
          · simp [hl]
        · simp [h1, h2, h3]; exact ⟨fun h => h.symm, fun h => h.symm⟩

/-- Reading an internet address depends only on the bytes the caller declared. -/
theorem read_local_partial (m m' : Mem) (len : Nat) (hlen : 2 ≤ len) (h : Agree len m m')
    (hf : u16At m 0 ≠ 1) : getSockaddr (some m) len = getSockaddr (some m') len := by
  have e0 : u16At m' 0 = u16At m 0 := by
    simp only [u16At]; rw [h 0 (by omega), h 1 (by omega)]
  simp only [getSockaddr, e0, hf, if_false]
  by_cases h2 : u16At m 0 = 2
  · simp only [h2, if_true, sizeV4]
    split
    · rfl
    · have e1 : u16At m 2 = u16At m' 2 := by
        simp only [u16At]; rw [h 2 (by omega), h 3 (by omega)]
      rw [e1, bytesAt_congr (fun i hi => h i (by omega)),
        bytesAt_congr (m := m) (off := 8) (fun i hi => h i (by omega))]
  · simp only [h2, if_false]
    split
    · simp only [sizeV6]
      by_cases hl : len < 28
      · simp [hl]
      · have e1 : u16At m 2 = u16At m' 2 := by
          simp only [u16At]; rw [h 2 (by omega), h 3 (by omega)]
        rw [e1, bytesAt_congr (fun i hi => h i (by omega)),
          bytesAt_congr (m := m) (off := 8) (fun i hi => h i (by omega)),
          bytesAt_congr (m := m) (off := 24) (fun i hi => h i (by omega))]
    · rfl

/-- A Unix address is read 110 bytes long whatever length the caller declared: bytes outside
the caller's structure become part of the path. Here the declared 16 bytes hold the path
`sssssssssssss`+`s` and the byte behind them is taken as a further character. -/
theorem read_local_violated : ∃ (m m' : Mem), Agree 16 m m'
    ∧ getSockaddr (some m) 16 ≠ getSockaddr (some m') 16 := by
  refine ⟨fun i => if i = 0 then 1 else if i = 1 then 0 else if i < 16 then 115 else 0,
    fun i => if i = 0 then 1 else if i = 1 then 0 else if i < 17 then 115 else 0, ?_, ?_⟩
  · intro i hi
    have : i < 17 := by omega
    simp [hi, this]
  · decide +kernel

/-! ## Writing an address -/

/-- Exactly the first `min len size` bytes of the caller's buffer are written, with the bytes of
the address; every other byte keeps its value, and the length word becomes the full size. -/
theorem write_exact (a : Addr) (m : Mem) (len : Nat) :
    (∀ i, i < len → i < sizeOf a → (copyOut a m len).1 i = (layout a).getD i 0)
    ∧ (∀ i, len ≤ i ∨ sizeOf a ≤ i → (copyOut a m len).1 i = m i)
    ∧ (copyOut a m len).2 = sizeOf a := by
  refine ⟨?_, ?_, ?_⟩
  · intro i h1 h2
    simp only [copyOut, poke]
    rw [if_pos (by omega)]
  · intro i h
    simp only [copyOut, poke]
    rw [if_neg (by omega)]
  · simp only [copyOut]; omega

/-- The size reported is the one of the structure the address's family uses in C. -/
theorem write_size (a : Addr) (h : Ok a) : ∃ f : Family,
    sizeOf a = f.size ∧ (layout a).length = f.size
      ∧ (layout a).take 2 = [f.number % 256, f.number / 256] := by
  have hl := layout_length h
  cases a with
  | unix f p => exact ⟨.unix, rfl, hl, by simp [Ok] at h; simp [layout, u16Bytes, Family.number, h]⟩
  | v4 f p a z => exact ⟨.inet, rfl, hl, by simp [Ok] at h; simp [layout, u16Bytes, Family.number, h]⟩
  | v6 f p w a s => exact ⟨.inet6, rfl, hl, by simp [Ok] at h; simp [layout, u16Bytes, Family.number, h]⟩

/-- A Unix or IPv4 address written to a large enough buffer and passed back with the length
reported is the same address. -/
theorem round_trip_partial (a : Addr) (h : Ok a) (hv : ∀ f p w b s, a ≠ .v6 f p w b s) (m : Mem)
    (len : Nat) (hlen : sizeOf a ≤ len) :
    getSockaddr (some (copyOut a m len).1) (copyOut a m len).2 = .ok a := by
  have hw := write_exact a m len
  have hl := layout_length h
  have hold : Holds (copyOut a m len).1 (layout a) := fun i hi => hw.1 i (by omega) (by omega)
  rw [hw.2.2]
  apply read_exact_partial a h _ hold
  cases a with
  | unix f p => simp [sizeOf, sizeUnix]
  | v4 f p a z => simp [sizeOf, sizeV4]
  | v6 f p w b s => exact absurd rfl (hv f p w b s)

/-- An IPv6 address handed out by accept or recvfrom cannot be passed back. -/
theorem round_trip_violated : ∃ (a : Addr) (m : Mem), Ok a
    ∧ getSockaddr (some (copyOut a m 28).1) (copyOut a m 28).2 = .error .EOPNOTSUPP := by
  refine ⟨.v6 10 80 [0, 0, 0, 0] (List.replicate 16 1) [0, 0, 0, 0], fun _ => 0, by simp [Ok], ?_⟩
  decide +kernel

/-! ## The calls that report an address -/

/-- accept and recvfrom: the call is made exactly when both pointers are null or neither is; the
caller's memory changes only if it succeeds, and then as `write_exact` says. -/
theorem out2_exact (addr : Option Mem) (len : Option Nat) (call : Int × Addr) :
    let o := outCall2 addr len call
    (o.called = true ↔ (addr = none ↔ len = none))
    ∧ (o.called = true → o.rv = call.1)
    ∧ (o.called = false → o.rv = -22 ∧ o.mem = addr ∧ o.len = len)
    ∧ (o.rv < 0 → o.mem = addr ∧ o.len = len)
    ∧ (∀ m n, addr = some m → len = some n → 0 ≤ call.1 →
        o.mem = some (copyOut call.2 m n).1 ∧ o.len = some (copyOut call.2 m n).2) := by
  cases addr <;> cases len <;> simp [outCall2]
  split <;> simp <;> omega

/-- getpeername and getsockname: the call is made exactly when neither pointer is null. -/
theorem out1_exact (addr : Option Mem) (len : Option Nat) (call : Int × Addr) :
    let o := outCall1 addr len call
    (o.called = true ↔ (addr ≠ none ∧ len ≠ none))
    ∧ (o.called = true → o.rv = call.1)
    ∧ (o.called = false → o.rv = -22 ∧ o.mem = addr ∧ o.len = len)
    ∧ (o.rv < 0 → o.mem = addr ∧ o.len = len)
    ∧ (∀ m n, addr = some m → len = some n → 0 ≤ call.1 →
        o.mem = some (copyOut call.2 m n).1 ∧ o.len = some (copyOut call.2 m n).2) := by
  cases addr <;> cases len <;> simp [outCall1]
  split <;> simp <;> omega

/-! ## Paths of Unix addresses -/

/-- The path of an address made from a path is that path, for every path of at most 108 bytes
without zero bytes. -/
theorem unix_path_round_trip (utf8 : List Nat → Bool) (f : Nat) (p : List Nat)
    (hl : p.length ≤ 108) (hz : ∀ b ∈ p, b ≠ 0) (hu : utf8 p = true) :
    ∃ a, newUnix f p = some a ∧ pathOf utf8 a = some p := by
  have ht : (p ++ List.replicate (108 - p.length) 0).takeWhile (fun b => b != 0) = p := by
    rw [List.takeWhile_append_of_pos (by simpa using hz)]
    cases 108 - p.length <;> simp [List.replicate_succ]
  refine ⟨.unix f (p ++ List.replicate (108 - p.length) 0), ?_, ?_⟩
  · simp [newUnix]; omega
  · simp [pathOf, ht, hu]

example : newUnix 1 [47, 115] ≠ none ∧ ∀ b ∈ ([47, 115] : List Nat), b ≠ 0 := by decide

/-- Asking for the path aborts the program exactly when the bytes before the first zero byte are
not UTF-8. These bytes come from the caller of bind or connect unchecked. -/
theorem unix_path_panic_violated (utf8 : List Nat → Bool) (hu : utf8 [255] = false) :
    ∃ (m : Mem) (a : Addr), getSockaddr (some m) 110 = .ok a ∧ pathOf utf8 a = none := by
  refine ⟨fun i => if i = 0 then 1 else if i = 2 then 255 else 0, _, rfl, ?_⟩
  have : ([255] ++ List.replicate 107 0 : List Nat).takeWhile (fun b => b != 0) = [255] := by
    decide
  have e : bytesAt (fun i => if i = 0 then 1 else if i = 2 then 255 else 0) 2 108
      = [255] ++ List.replicate 107 0 := by decide +kernel
  simp only [pathOf, e, this, hu]
  simp

end Verif.SockAddr
