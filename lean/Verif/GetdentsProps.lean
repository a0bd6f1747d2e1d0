import Verif.Getdents

/-!
# getdents: C29

The specification is a reader of the buffer format `struct linux_dirent64`-style: what a user program
does with the bytes it got.
-/

namespace Verif.Getdents
open Verif.Path

/-! ## Specification -/

/-- Value of a little-endian field. -/
def ofLe : List UInt8 → Nat
  | [] => 0
  | b :: bs => b.toNat + 256 * ofLe bs

/-- What a user program reads out of a buffer: the inode number in the first 8 bytes, the length of
the record at offset 16, the name from offset 18 to the next zero byte; the next record starts
where this one ends.  `none` if a record does not fit the format, or its length is not a multiple
of 8. -/
def parse : Nat → List UInt8 → Option (List (Str × Nat))
  | _, [] => some []
  | 0, _ :: _ => none
  | fuel + 1, bs =>
    let len := ofLe ((bs.drop 16).take 2)
    if len < 20 ∨ len % 8 ≠ 0 ∨ bs.length < len then none
    else
      match parse fuel (bs.drop len) with
      | none => none
      | some es => some (((bs.drop 18).takeWhile (· ≠ 0), ofLe (bs.take 8)) :: es)

/-- A directory whose names are C strings of less than 60000 bytes and whose
inode numbers fit 64 bits. -/
def Sane (ents : List (Str × Nat)) : Prop :=
  ∀ e ∈ ents, (0 : UInt8) ∉ e.1 ∧ e.1.length < 60000 ∧ e.2 < 2 ^ 64

/-- Call getdents once per buffer size on an unchanging directory, and collect what the user
program reads out of each buffer. -/
def session (ents : List (Str × Nat)) : Nat → List Nat → List (Ret × Option (List (Str × Nat)))
  | _, [] => []
  | pos, b :: bs =>
    let r := getdents ents pos b
    (r.ret, parse b r.bytes) :: session ents r.pos bs

/-- All names read in a session. -/
def listed (out : List (Ret × Option (List (Str × Nat)))) : List (Str × Nat) :=
  out.flatMap (fun x => x.2.getD [])

/-! ## Lemmas -/

theorem recLen_ge (n : Str) : n.length + 20 ≤ recLen n := by
  simp only [recLen, clipped]; omega

theorem recLen_lt (n : Str) : recLen n < n.length + 28 := by
  simp only [recLen, clipped]; omega

theorem recLen_mod (n : Str) : recLen n % 8 = 0 := by
  simp only [recLen, clipped]; omega

theorem le_length (k n : Nat) : (le k n).length = k := by
  induction k generalizing n with
  | zero => rfl
  | succ k ih => simp [le, ih]

theorem ofLe_le (k n : Nat) (h : n < 256 ^ k) : ofLe (le k n) = n := by
  induction k generalizing n with
  | zero => simp at h; simp [le, ofLe, h]
  | succ k ih =>
    have h2 : n / 256 < 256 ^ k := by
      rw [Nat.pow_succ] at h; exact Nat.div_lt_of_lt_mul (by omega)
    simp only [le, ofLe, ih _ h2, UInt8.toNat_ofNat']
    omega

/-- The record of an entry that ends at offset `off`. -/
def mk (e : Str × Nat) (off : Nat) : Rec :=
  { ino := e.2, off := off, reclen := recLen e.1,
    tail := e.1 ++ [0, 0] ++ List.replicate (recLen e.1 - (clipped + (e.1.length + 2))) 0 }

theorem mk_length (e : Str × Nat) (off : Nat) : (mk e off).bytes.length = recLen e.1 := by
  have := recLen_ge e.1
  simp [Rec.bytes, mk, le_length, clipped]; omega

theorem fill_cons (bufsize : Nat) (e : Str × Nat) (es : List (Str × Nat)) (b : Nat) :
    fill bufsize (e :: es) b =
      if b + recLen e.1 > bufsize then ([], b)
      else (mk e (b + recLen e.1) :: (fill bufsize es (b + recLen e.1)).1,
            (fill bufsize es (b + recLen e.1)).2) := rfl

theorem fill_total (bufsize : Nat) (es : List (Str × Nat)) (b : Nat) (hb : b ≤ bufsize) :
    (fill bufsize es b).2 = b + ((fill bufsize es b).1.flatMap Rec.bytes).length
      ∧ (fill bufsize es b).2 ≤ bufsize ∧ (fill bufsize es b).1.length ≤ es.length := by
  induction es generalizing b with
  | nil => simp [fill, hb]
  | cons e es ih =>
    rw [fill_cons]
    split
    · simp [hb]
    · rename_i h
      obtain ⟨h1, h2, h3⟩ := ih (b + recLen e.1) (by omega)
      simp only [List.flatMap_cons, List.length_append, mk_length, List.length_cons]
      omega

theorem takeWhile_name (n : Str) (h : (0 : UInt8) ∉ n) (rest : List UInt8) :
    (n ++ 0 :: rest).takeWhile (· ≠ 0) = n := by
  induction n with
  | nil => simp
  | cons c cs ih =>
    simp only [List.mem_cons, not_or] at h
    have : c ≠ 0 := fun e => h.1 e.symm
    simp only [List.cons_append, List.takeWhile_cons, ih h.2]
    simp [this]

theorem parse_cons (e : Str × Nat) (off fuel : Nat) (rest : List UInt8)
    (h0 : (0 : UInt8) ∉ e.1) (hl : e.1.length < 60000) (hi : e.2 < 2 ^ 64) :
    parse (fuel + 1) ((mk e off).bytes ++ rest) =
      (parse fuel rest).map (fun es => e :: es) := by
  have hge := recLen_ge e.1
  have hlt := recLen_lt e.1
  have hmod := recLen_mod e.1
  have hlen := mk_length e off
  have hne : ∃ a as, (mk e off).bytes ++ rest = a :: as := by
    cases h : (mk e off).bytes ++ rest with
    | nil => have := congrArg List.length h; simp [hlen] at this; omega
    | cons a as => exact ⟨a, as, rfl⟩
  have h16 : (((mk e off).bytes ++ rest).drop 16).take 2 = le 2 (recLen e.1) := by
    have : (le 8 e.2 ++ le 8 off).length = 16 := by simp [le_length]
    simp only [Rec.bytes, mk]
    rw [List.append_assoc (le 8 e.2 ++ le 8 off), List.append_assoc (le 8 e.2 ++ le 8 off),
      List.drop_append_of_le_length (by omega), ← this, List.drop_length]
    simp only [List.nil_append, List.append_assoc]
    rw [List.take_append_of_le_length (by simp [le_length])]
    exact List.take_of_length_le (by simp [le_length])
  have h18 : ((mk e off).bytes ++ rest).drop 18 = e.1 ++ 0 :: (0 ::
      (List.replicate (recLen e.1 - (clipped + (e.1.length + 2))) 0 ++ rest)) := by
    have : (le 8 e.2 ++ le 8 off ++ le 2 (recLen e.1)).length = 18 := by simp [le_length]
    simp only [Rec.bytes, mk]
    rw [List.append_assoc (le 8 e.2 ++ le 8 off ++ le 2 (recLen e.1)),
      List.drop_append_of_le_length (by omega), ← this, List.drop_length]
    simp
  have h8 : ((mk e off).bytes ++ rest).take 8 = le 8 e.2 := by
    simp only [Rec.bytes, mk, List.append_assoc]
    rw [List.take_append_of_le_length (by simp [le_length])]
    exact List.take_of_length_le (by simp [le_length])
  have hdrop : ((mk e off).bytes ++ rest).drop (recLen e.1) = rest := by
    rw [List.drop_append_of_le_length (by omega), ← hlen, List.drop_length]; rfl
  obtain ⟨a, as, has⟩ := hne
  have hun : ∀ bs : List UInt8, (∃ a as, bs = a :: as) → parse (fuel + 1) bs =
      (if ofLe ((bs.drop 16).take 2) < 20 ∨ ofLe ((bs.drop 16).take 2) % 8 ≠ 0 ∨
          bs.length < ofLe ((bs.drop 16).take 2) then none
       else match parse fuel (bs.drop (ofLe ((bs.drop 16).take 2))) with
        | none => none
        | some es => some (((bs.drop 18).takeWhile (· ≠ 0), ofLe (bs.take 8)) :: es)) := by
    rintro bs ⟨a, as, rfl⟩; rfl
  rw [hun _ ⟨a, as, has⟩, h16, h18, h8, ofLe_le 2 _ (by omega), ofLe_le 8 _ (by omega), hdrop,
    takeWhile_name _ h0]
  rw [if_neg (by simp only [List.length_append, hlen]; omega)]
  cases parse fuel rest <;> rfl

theorem parse_fill (bufsize : Nat) (es : List (Str × Nat)) (b : Nat) (hs : Sane es) (fuel : Nat)
    (hf : (fill bufsize es b).1.length ≤ fuel) :
    parse fuel ((fill bufsize es b).1.flatMap Rec.bytes)
      = some (es.take (fill bufsize es b).1.length) := by
  induction es generalizing b fuel with
  | nil => simp [fill, parse]
  | cons e es ih =>
    rw [fill_cons] at hf ⊢
    split
    · simp [parse]
    · rename_i h
      rw [if_neg h] at hf
      simp only [List.length_cons] at hf
      obtain ⟨h0, hl, hi⟩ := hs e (by simp)
      cases fuel with
      | zero => omega
      | succ fuel =>
        simp only [List.flatMap_cons, parse_cons e _ fuel _ h0 hl hi, List.length_cons]
        rw [ih _ (fun x hx => hs x (by simp [hx])) fuel (by omega)]
        simp

theorem fill_count (bufsize : Nat) (es : List (Str × Nat)) (b : Nat) :
    (fill bufsize es b).1.length * 8 + b ≤ (fill bufsize es b).2 := by
  induction es generalizing b with
  | nil => simp [fill]
  | cons e es ih =>
    rw [fill_cons]
    split
    · simp
    · have := ih (b + recLen e.1)
      have := recLen_ge e.1
      simp only [List.length_cons]; omega

theorem getdents_eq (ents : List (Str × Nat)) (pos b : Nat) (hb : clipped < b) :
    getdents ents pos b =
      { ret := .ok (fill b (ents.drop pos) 0).2
        bytes := (fill b (ents.drop pos) 0).1.flatMap Rec.bytes
        pos := min (pos + (fill b (ents.drop pos) 0).1.length) ents.length
        recs := (fill b (ents.drop pos) 0).1 } := by
  rw [getdents, if_neg (by omega)]

/-! ## Property theorems -/

/-- **C29 (buffer bound).** The bytes stored are as many as the return value says, and never more
than the buffer holds. -/
theorem getdents_within_buffer (ents : List (Str × Nat)) (pos bufsize : Nat) :
    (getdents ents pos bufsize).bytes.length ≤ bufsize ∧
    (∀ v, (getdents ents pos bufsize).ret = .ok v →
      v = ((getdents ents pos bufsize).bytes.length : Int)) := by
  by_cases h : bufsize ≤ clipped
  · rw [getdents, if_pos h]; simp
  · rw [getdents_eq _ _ _ (by omega)]
    obtain ⟨h1, h2, -⟩ := fill_total bufsize (ents.drop pos) 0 (by omega)
    simp only [Ret.ok.injEq]
    refine ⟨by omega, ?_⟩
    rintro v rfl
    rw [h1]; simp

example : (getdents [([97], 9), ([98, 99], 10)] 0 40).bytes.length = 24 ∧
    (getdents [([97], 9), ([98, 99], 10)] 0 40).ret = .ok 24 := by decide

/-- One call returns exactly the next entries after the position, as many as the position
advances by, in a buffer that parses; it returns no entry only at the end of the directory or if
the next record does not fit. -/
theorem getdents_one (ents : List (Str × Nat)) (hs : Sane ents) (pos bufsize : Nat)
    (hp : pos ≤ ents.length) (hb : clipped < bufsize) :
    ∃ k, parse bufsize (getdents ents pos bufsize).bytes = some ((ents.drop pos).take k) ∧
      (getdents ents pos bufsize).pos = pos + k ∧ pos + k ≤ ents.length ∧
      ((getdents ents pos bufsize).ret = .ok 0 ↔ k = 0) ∧
      (k = 0 → pos = ents.length ∨ ∃ e, (ents.drop pos).head? = some e ∧ recLen e.1 > bufsize) := by
  rw [getdents_eq _ _ _ hb]
  obtain ⟨h1, h2, h3⟩ := fill_total bufsize (ents.drop pos) 0 (by omega)
  have h4 := fill_count bufsize (ents.drop pos) 0
  rw [List.length_drop] at h3
  refine ⟨(fill bufsize (ents.drop pos) 0).1.length, ?_, ?_, ?_, ?_, ?_⟩
  · exact parse_fill _ _ _ (fun e he => hs e (List.mem_of_mem_drop he)) _ (by omega)
  · show min _ _ = _
    omega
  · omega
  · simp only [Ret.ok.injEq]
    constructor
    · intro h; omega
    · intro h
      rw [List.length_eq_zero_iff] at h
      rw [h1, h]; simp
  · intro h
    cases hd : ents.drop pos with
    | nil => left; have := congrArg List.length hd; simp at this; omega
    | cons e es =>
      right
      refine ⟨e, rfl, ?_⟩
      rw [hd, fill_cons] at h
      split at h
      · omega
      · simp at h

theorem listed_session (ents : List (Str × Nat)) (hs : Sane ents) (pos : Nat) (hp : pos ≤ ents.length)
    (sizes : List Nat) (hb : ∀ b ∈ sizes, clipped < b) :
    ∃ k, listed (session ents pos sizes) = (ents.drop pos).take k ∧ pos + k ≤ ents.length ∧
      ((∀ b ∈ sizes, ∀ e ∈ ents, recLen e.1 ≤ b) → min (pos + sizes.length) ents.length ≤ pos + k) ∧
      (∀ b, parse b (getdents ents (pos + k) b).bytes = parse b
        (getdents ents (sizes.foldl (fun p b => (getdents ents p b).pos) pos) b).bytes) ∧
      sizes.foldl (fun p b => (getdents ents p b).pos) pos = pos + k := by
  induction sizes generalizing pos with
  | nil => exact ⟨0, by simp [session, listed], by omega, by intro _; simp; omega, by simp, by simp⟩
  | cons b bs ih =>
    obtain ⟨k, h1, h2, h3, h4, h5⟩ := getdents_one ents hs pos b hp (hb b (by simp))
    obtain ⟨k', g1, g2, g3, g4, g5⟩ := ih (pos + k) h3 (fun x hx => hb x (by simp [hx]))
    refine ⟨k + k', ?_, by omega, ?_, ?_, ?_⟩
    · simp only [session, listed, List.flatMap_cons, h1, h2, Option.getD_some] at g1 ⊢
      rw [g1, List.take_add, List.drop_drop]
    · intro hbig
      have := g3 (fun x hx => hbig x (by simp [hx]))
      simp only [List.length_cons]
      by_cases hk : k = 0
      · rcases h5 hk with h | ⟨e, he, hlt⟩
        · omega
        · have := hbig b (by simp) e
            (List.mem_of_mem_drop (List.mem_of_mem_head? (by rw [he]; rfl)))
          omega
      · omega
    · intro x
      simp only [List.foldl_cons, h2, ← Nat.add_assoc]; exact g4 x
    · simp only [List.foldl_cons, h2, ← Nat.add_assoc]; exact g5

/-- **C29.** Any sequence of getdents calls on an unchanging directory, with any (legal) buffer
sizes, yields a prefix of the directory's entries, each entry once and in order. -/
theorem getdents_prefix (ents : List (Str × Nat)) (hs : Sane ents) (sizes : List Nat)
    (hb : ∀ b ∈ sizes, clipped < b) :
    listed (session ents 0 sizes) <+: ents := by
  obtain ⟨k, h, -⟩ := listed_session ents hs 0 (by omega) sizes hb
  rw [h]; exact List.take_prefix _ _

/-- **C29.** If every buffer is large enough for each record, the session lists every
entry exactly once after at most as many calls as there are entries, and from then on
calls return 0. -/
theorem getdents_complete (ents : List (Str × Nat)) (hs : Sane ents) (sizes : List Nat)
    (hb : ∀ b ∈ sizes, clipped < b ∧ ∀ e ∈ ents, recLen e.1 ≤ b) (hn : ents.length ≤ sizes.length) :
    listed (session ents 0 sizes) = ents ∧
    ∀ b, clipped < b → (getdents ents
      (sizes.foldl (fun p b => (getdents ents p b).pos) 0) b).ret = .ok 0 := by
  obtain ⟨k, h1, h2, h3, -, h5⟩ := listed_session ents hs 0 (by omega) sizes (fun b h => (hb b h).1)
  have := h3 (fun b h => (hb b h).2)
  have hk : k = ents.length := by omega
  subst hk
  refine ⟨by rw [h1]; simp, ?_⟩
  intro b hb'
  rw [h5]
  obtain ⟨k, -, -, g3, g4, -⟩ := getdents_one ents hs (0 + ents.length) b (by omega) hb'
  exact g4.2 (by omega)

/-- The same in terms of a single entry: with names distinct, each name comes up exactly once. -/
theorem getdents_each_once (ents : List (Str × Nat)) (hs : Sane ents)
    (hnd : (ents.map Prod.fst).Nodup) (sizes : List Nat)
    (hb : ∀ b ∈ sizes, clipped < b ∧ ∀ e ∈ ents, recLen e.1 ≤ b) (hn : ents.length ≤ sizes.length)
    (e : Str × Nat) (he : e ∈ ents) :
    ((listed (session ents 0 sizes)).map Prod.fst).count e.1 = 1 := by
  rw [(getdents_complete ents hs sizes hb hn).1]
  rw [hnd.count, if_pos (List.mem_map_of_mem he)]

example : listed (session [(dot, 1), (dotdot, 1), ([97, 98], 7)] 0 [30, 56, 24, 24]) =
    [(dot, 1), (dotdot, 1), ([97, 98], 7)] := by decide +kernel
example : Sane [(dot, 1), (dotdot, 1), ([97, 98], 7)] ∧ recLen [97, 98] = 24 := by
  refine ⟨?_, by decide⟩
  intro e he
  simp only [List.mem_cons, List.not_mem_nil, or_false] at he
  rcases he with rfl | rfl | rfl <;> decide

/-- A buffer between 19 bytes and the size of the next record is accepted, and the answer is 0, which
also means end of directory: the remaining entries are not listed. -/
theorem getdents_small_buffer_violated :
    (getdents [([97, 98], 7)] 0 20).ret = .ok 0 ∧ (getdents [([97, 98], 7)] 0 20).pos = 0 := by decide

/-- The record length field has 16 bits: a name of 65510 bytes makes a record whose length reads 0. -/
theorem getdents_long_name_violated :
    ofLe (((mk (List.replicate 65510 97, 7) 0).bytes.drop 16).take 2) = 0 := by
  have : recLen (List.replicate 65510 97) = 65536 := by
    simp [recLen, clipped, -List.reduceReplicate]
  have h16 : (((mk (List.replicate 65510 97, 7) 0).bytes).drop 16).take 2 = le 2 65536 := by
    have hl : (le 8 7 ++ le 8 0).length = 16 := by simp [le_length]
    simp only [Rec.bytes, mk, this]
    rw [List.append_assoc (le 8 7 ++ le 8 0),
      List.drop_append_of_le_length (by omega), ← hl, List.drop_length]
    simp only [List.nil_append]
    rw [List.take_append_of_le_length (by simp [le_length])]
    exact List.take_of_length_le (by simp [le_length])
  rw [h16]; decide

end Verif.Getdents
