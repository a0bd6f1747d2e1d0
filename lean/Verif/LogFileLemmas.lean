import Verif.LogFile

/-! # Lemmas: the codec reads back what was written; the mapped file -/

namespace Verif.LogFile

theorem be_length (k n : Nat) : (be k n).length = k := by
  induction k generalizing n with
  | zero => rfl
  | succ k ih => simp [be, ih]

theorem foldl_be (k n acc : Nat) (h : n < 256 ^ k) :
    (be k n).foldl (fun n b => n * 256 + b.toNat) acc = acc * 256 ^ k + n := by
  induction k generalizing n acc with
  | zero => simp [be] at h ⊢; omega
  | succ k ih =>
    have hp : 0 < 256 ^ k := Nat.pow_pos (by decide)
    have hlt : n / 256 ^ k < 256 := by
      rw [Nat.div_lt_iff_lt_mul hp]; rw [Nat.pow_succ, Nat.mul_comm] at h; exact h
    simp only [be, List.foldl_cons]
    rw [ih _ _ (Nat.mod_lt _ hp)]
    have : (UInt8.ofNat (n / 256 ^ k)).toNat = n / 256 ^ k := by
      rw [UInt8.toNat_ofNat']; exact Nat.mod_eq_of_lt hlt
    rw [this, Nat.add_mul, Nat.pow_succ]
    have h2 := Nat.div_add_mod n (256 ^ k)
    have h3 : n / 256 ^ k * 256 ^ k = 256 ^ k * (n / 256 ^ k) := Nat.mul_comm _ _
    have h4 : acc * 256 * 256 ^ k = acc * (256 ^ k * 256) := by rw [Nat.mul_assoc, Nat.mul_comm 256]
    omega

theorem unbe_be (k n : Nat) (h : n < 256 ^ k) : unbe (be k n) = n := by
  unfold unbe; rw [foldl_be k n 0 h]; omega

theorem takeN_append (xs r : Bytes) : takeN xs.length (xs ++ r) = some (xs, r) := by
  simp [takeN]

theorem argN_be (m k n : Nat) (r : Bytes) (h : n < 256 ^ k) : argN m k (be k n ++ r) = some (m, n, r) := by
  have := takeN_append (be k n) r
  rw [be_length] at this
  simp only [argN, this, unbe_be k n h]

theorem toNat_small {n : Nat} (h : n < 256) : (UInt8.ofNat n).toNat = n := by
  rw [UInt8.toNat_ofNat']; exact Nat.mod_eq_of_lt h

theorem getHead_head (m n : Nat) (r : Bytes) (hm : m < 8) (h : n < 256 ^ 8) : getHead (head m n ++ r) = some (m, n, r) := by
  unfold head
  split
  · next h1 =>
    simp only [List.cons_append, List.nil_append, getHead, toNat_small (show m * 32 + n < 256 by omega)]
    rw [show (m * 32 + n) / 32 = m by omega, show (m * 32 + n) % 32 = n by omega, if_pos h1]
  · split
    · next h2 =>
      simp only [List.cons_append, getHead, toNat_small (show m * 32 + 24 < 256 by omega)]
      rw [show (m * 32 + 24) / 32 = m by omega, show (m * 32 + 24) % 32 = 24 by omega]
      simp [argN_be m 1 n r h2]
    · split
      · next h2 =>
        simp only [List.cons_append, getHead, toNat_small (show m * 32 + 25 < 256 by omega)]
        rw [show (m * 32 + 25) / 32 = m by omega, show (m * 32 + 25) % 32 = 25 by omega]
        simp [argN_be m 2 n r h2]
      · split
        · next h2 =>
          simp only [List.cons_append, getHead, toNat_small (show m * 32 + 26 < 256 by omega)]
          rw [show (m * 32 + 26) / 32 = m by omega, show (m * 32 + 26) % 32 = 26 by omega]
          simp [argN_be m 4 n r h2]
        · simp only [List.cons_append, getHead, toNat_small (show m * 32 + 27 < 256 by omega)]
          rw [show (m * 32 + 27) / 32 = m by omega, show (m * 32 + 27) % 32 = 27 by omega]
          simp [argN_be m 8 n r h]

theorem want_head (m n : Nat) (r : Bytes) (hm : m < 8) (h : n < 256 ^ 8) : want m (head m n ++ r) = some (n, r) := by
  simp [want, getHead_head m n r hm h]

theorem getNum_put (n : Nat) (r : Bytes) (h : n < 256 ^ 8) : getNum (putNum n ++ r) = some (n, r) :=
  want_head 0 n r (by decide) h

theorem expect_head (m n : Nat) (r : Bytes) (hm : m < 8) (h : n < 256 ^ 8) : expect m n (head m n ++ r) = some r := by
  simp [expect, want_head m n r hm h]

theorem getField_put (k n : Nat) (r : Bytes) (hk : k < 256 ^ 8) (h : n < 256 ^ 8) :
    getField k (putField k n ++ r) = some (n, r) := by
  simp [getField, putField, List.append_assoc, getNum_put k _ hk, getNum_put n r h]

/-- Numbers that a machine word holds. -/
def Word (n : Nat) : Prop := n < 256 ^ 8

def AttrFits (a : Attr) : Prop :=
  Word a.size ∧ Word a.uid ∧ Word a.gid ∧ Word a.mode ∧ Word a.link ∧ Word a.atime ∧ Word a.ctime ∧ Word a.mtime

def RecFits : Rec → Prop
  | .file a => AttrFits a
  | .sock a => AttrFits a
  | .chr a x y => AttrFits a ∧ Word x ∧ Word y
  | .dir a d => AttrFits a ∧ Word d.length ∧ ∀ e, e ∈ d → Word e.1.length ∧ Word e.2

def EntryFits (e : Entry) : Prop := Word e.1 ∧ ∀ r, e.2 = some r → RecFits r

theorem small {k : Nat} (h : k ≤ 100) : k < 256 ^ 8 := by
  have : (256 : Nat) ^ 8 = 18446744073709551616 := by decide
  omega

theorem getAttr_put (a : Attr) (r : Bytes) (h : AttrFits a) : getAttr (putAttr a ++ r) = some (a, r) := by
  obtain ⟨h0, h1, h2, h3, h4, h5, h6, h7⟩ := h
  simp only [getAttr, putAttr, List.append_assoc]
  rw [getField_put 0 _ _ (small (by decide)) h0]; dsimp only [bind, Option.bind]
  rw [getField_put 1 _ _ (small (by decide)) h1]; dsimp only
  rw [getField_put 2 _ _ (small (by decide)) h2]; dsimp only
  rw [getField_put 3 _ _ (small (by decide)) h3]; dsimp only
  rw [getField_put 4 _ _ (small (by decide)) h4]; dsimp only
  rw [getField_put 5 _ _ (small (by decide)) h5]; dsimp only
  rw [getField_put 6 _ _ (small (by decide)) h6]; dsimp only
  rw [getField_put 7 _ _ (small (by decide)) h7]

theorem getEnts_put (d : List (Bytes × Nat)) (r : Bytes) (h : ∀ e, e ∈ d → Word e.1.length ∧ Word e.2) :
    getEnts d.length ((d.flatMap fun e => head 3 e.1.length ++ e.1 ++ putNum e.2) ++ r) = some (d, r) := by
  induction d with
  | nil => simp [getEnts]
  | cons e d ih =>
    have he := h e (by simp)
    have ih := ih (fun x hx => h x (by simp [hx]))
    simp only [List.length_cons, List.flatMap_cons, List.append_assoc, getEnts] at ih ⊢
    rw [want_head 3 _ _ (by decide) he.1]; dsimp only
    rw [takeN_append]; dsimp only
    rw [getNum_put _ _ he.2]; dsimp only
    rw [ih]

theorem getDict_put (d : List (Bytes × Nat)) (r : Bytes) (hl : Word d.length) (h : ∀ e, e ∈ d → Word e.1.length ∧ Word e.2) :
    getDict (putDict d ++ r) = some (d, r) := by
  have := getEnts_put d r h
  simp only [getDict, putDict, List.append_assoc] at this ⊢
  rw [want_head 5 _ _ (by decide) hl]; dsimp only
  exact this

theorem getRec_put (x : Rec) (r : Bytes) (h : RecFits x) : getRec (putRec x ++ r) = some (x, r) := by
  have e51 : ∀ r, expect 5 1 (head 5 1 ++ r) = some r := fun r => expect_head 5 1 r (by decide) (small (by decide))
  have e58 : ∀ r, expect 5 8 (head 5 8 ++ r) = some r := fun r => expect_head 5 8 r (by decide) (small (by decide))
  have e59 : ∀ r, expect 5 9 (head 5 9 ++ r) = some r := fun r => expect_head 5 9 r (by decide) (small (by decide))
  have e52 : ∀ r, expect 5 2 (head 5 2 ++ r) = some r := fun r => expect_head 5 2 r (by decide) (small (by decide))
  have e08 : ∀ r, expect 0 8 (putNum 8 ++ r) = some r := fun r => expect_head 0 8 r (by decide) (small (by decide))
  cases x with
  | file a =>
    simp only [putRec, List.append_assoc, getRec, e51, bind, Option.bind]
    rw [getNum_put 0 _ (small (by decide))]; dsimp only
    rw [if_pos rfl, e58]; dsimp only
    rw [getAttr_put a r h]
  | sock a =>
    simp only [putRec, List.append_assoc, getRec, e51, bind, Option.bind]
    rw [getNum_put 2 _ (small (by decide))]; dsimp only
    rw [if_neg (by decide), if_neg (by decide), if_pos rfl, e58]; dsimp only
    rw [getAttr_put a r h]
  | chr a x y =>
    simp only [putRec, List.append_assoc, getRec, e51, bind, Option.bind]
    rw [getNum_put 1 _ (small (by decide))]; dsimp only
    rw [if_neg (by decide), if_pos rfl, e59]; dsimp only
    rw [getAttr_put a _ h.1]; dsimp only
    rw [e08]; dsimp only
    rw [e52]; dsimp only
    rw [getField_put 0 _ _ (small (by decide)) h.2.1]; dsimp only
    rw [getField_put 1 _ _ (small (by decide)) h.2.2]
  | dir a d =>
    simp only [putRec, List.append_assoc, getRec, e51, bind, Option.bind]
    rw [getNum_put 3 _ (small (by decide))]; dsimp only
    rw [if_neg (by decide), if_neg (by decide), if_neg (by decide), if_pos rfl, e59]; dsimp only
    rw [getAttr_put a _ h.1]; dsimp only
    rw [e08]; dsimp only
    rw [getDict_put d r h.2.1 h.2.2]

theorem putRec_head (x : Rec) : ∃ t, putRec x = 0xa1 :: t := by
  cases x <;> simp [putRec, head]

theorem getEntry_put (e : Entry) (r : Bytes) (h : EntryFits e) : getEntry (putEntry e ++ r) = some (e, r) := by
  obtain ⟨i, o⟩ := e
  have e42 : ∀ r, expect 4 2 (head 4 2 ++ r) = some r := fun r => expect_head 4 2 r (by decide) (small (by decide))
  simp only [getEntry, putEntry, List.append_assoc, e42]
  rw [getNum_put i _ h.1]; dsimp only
  cases o with
  | none => rfl
  | some x =>
    have hx := getRec_put x r (h.2 x rfl)
    obtain ⟨t, ht⟩ := putRec_head x
    dsimp only
    rw [ht] at hx ⊢
    simp only [List.cons_append] at hx ⊢
    split
    · next heq => simp at heq
    · rw [hx]

theorem putEntry_head (e : Entry) : ∃ t, putEntry e = 0x82 :: t := by
  simp [putEntry, head]

/-- The bytes of a list of entries. -/
def bytes (es : List Entry) : Bytes := es.flatMap putEntry

theorem bytes_append (es fs : List Entry) : bytes (es ++ fs) = bytes es ++ bytes fs := by simp [bytes]

theorem bytes_ge (es : List Entry) : es.length ≤ (bytes es).length := by
  induction es with
  | nil => simp
  | cons e es ih =>
    obtain ⟨t, ht⟩ := putEntry_head e
    simp [bytes, ht] at ih ⊢; omega

theorem getItems_bytes (es : List Entry) (h : ∀ e, e ∈ es → EntryFits e) (fuel : Nat) (hf : es.length < fuel) :
    getItems fuel (bytes es ++ [0xff]) = some es := by
  induction es generalizing fuel with
  | nil => cases fuel with
    | zero => omega
    | succ k => simp [bytes, getItems]
  | cons e es ih =>
    cases fuel with
    | zero => omega
    | succ k =>
      have he := getEntry_put e (bytes es ++ [0xff]) (h e (by simp))
      have hi := ih (fun x hx => h x (by simp [hx])) k (by simp at hf; omega)
      obtain ⟨t, ht⟩ := putEntry_head e
      have hb : bytes (e :: es) = putEntry e ++ bytes es := by simp [bytes]
      rw [hb, List.append_assoc]
      rw [ht] at he ⊢
      simp only [List.cons_append, getItems] at he ⊢
      rw [if_neg (by decide), he]; dsimp only
      rw [hi]

/-! ## The mapped file -/

/-- The file holds exactly these entries. -/
structure Holds (m : Map) (es : List Entry) : Prop where
  fits : ∀ e, e ∈ es → EntryFits e
  cnt : m.img.cnt = be cntSize m.count
  count : m.count = (bytes es).length
  room : m.count ≤ m.img.data.length
  word : m.count < 256 ^ 8
  data : m.img.data.take m.count = bytes es

theorem load_of (cnt data : Bytes) (es : List Entry) (n : Nat) (hfits : ∀ e, e ∈ es → EntryFits e) (hc : cnt = be cntSize n)
    (hw : n < 256 ^ 8) (hn : n = (bytes es).length) (hr : n ≤ data.length) (hd : data.take n = bytes es) :
    load { cnt := cnt, data := data } = some es := by
  have hu : unbe cnt = n := by rw [hc]; exact unbe_be cntSize n hw
  simp only [load, hu]
  rw [if_pos hr, hd]
  exact getItems_bytes es hfits _ (by have := bytes_ge es; omega)

theorem Holds.load {m : Map} {es : List Entry} (h : Holds m es) : load m.img = some es :=
  load_of m.img.cnt m.img.data es m.count h.fits h.cnt h.word h.count h.room h.data

theorem patch_take (data bs : Bytes) (k : Nat) (h : k ≤ data.length) : (patch data k bs).take k = data.take k := by
  simp only [patch, List.append_assoc]
  rw [List.take_append_of_le_length (by simp; omega), List.take_take, Nat.min_self]

theorem patch_take_all (data bs : Bytes) (k : Nat) (h : k ≤ data.length) :
    (patch data k bs).take (k + bs.length) = data.take k ++ bs := by
  simp only [patch]
  rw [List.take_append_of_le_length (by simp; omega)]
  rw [List.take_of_length_le (by simp; omega)]

theorem patch_length (data bs : Bytes) (k : Nat) (h : k + bs.length ≤ data.length) : (patch data k bs).length = data.length := by
  simp [patch]; omega

theorem Holds.extend {m : Map} {es : List Entry} (h : Holds m es) : Holds m.extend es := by
  refine ⟨h.fits, h.cnt, h.count, ?_, h.word, ?_⟩
  · have := h.room; simp only [Map.extend, List.length_append]; omega
  · simp only [Map.extend]; rw [List.take_append_of_le_length h.room]; exact h.data

theorem Holds.fit {m : Map} {es : List Entry} (h : Holds m es) (bs : Bytes) : Holds (m.fit bs) es := by
  unfold Map.fit; split
  · exact h.extend
  · exact h

theorem fit_count (m : Map) (bs : Bytes) : (m.fit bs).count = m.count := by unfold Map.fit; split <;> rfl
theorem fit_cnt (m : Map) (bs : Bytes) : (m.fit bs).img.cnt = m.img.cnt := by unfold Map.fit; split <;> rfl

theorem Holds.append {m m' : Map} {es : List Entry} (h : Holds m es) (e : Entry) (he : EntryFits e) (ha : m.append e = some m')
    (hw : m'.count < 256 ^ 8) : Holds m' (es ++ [e]) := by
  have hf := h.fit (putEntry e)
  simp only [Map.append, Map.write] at ha
  split at ha
  · cases ha
  · next hroom =>
    injection ha with ha; subst ha
    have hb : bytes [e] = putEntry e := by simp [bytes]
    refine ⟨?_, rfl, ?_, ?_, hw, ?_⟩
    · intro x hx; simp only [List.mem_append, List.mem_singleton] at hx
      rcases hx with hx | rfl
      · exact h.fits x hx
      · exact he
    · simp only [bytes_append, hb, List.length_append]; rw [hf.count]
    · simp only; rw [patch_length _ _ _ (by omega)]; omega
    · simp only; rw [patch_take_all _ _ _ hf.room, hf.data, bytes_append, hb]

end Verif.LogFile
