import Verif.IpText

/-!
# Lemmas about textual IP addresses
-/

namespace Verif.IpText

/-! ## Splitting -/

/-- Pieces joined by a separator. -/
def joinWith (c : Char) : List (List Char) → List Char
  | [] => []
  | [p] => p
  | p :: ps => p ++ c :: joinWith c ps

theorem splitOn_ne_nil (c : Char) (s : List Char) : splitOn c s ≠ [] := by
  cases s with
  | nil => simp [splitOn]
  | cons x xs =>
    simp only [splitOn]
    split
    · simp
    · split <;> simp

theorem join_splitOn (c : Char) (s : List Char) : joinWith c (splitOn c s) = s := by
  induction s with
  | nil => simp [splitOn, joinWith]
  | cons x xs ih =>
    simp only [splitOn]
    have hne := splitOn_ne_nil c xs
    cases h : splitOn c xs with
    | nil => exact absurd h hne
    | cons p ps =>
      rw [h] at ih
      split
      · rename_i hx
        simp [joinWith, ih, hx]
      · cases ps <;> simp_all [joinWith]

theorem splitOn_not_mem (c : Char) (s : List Char) : ∀ p ∈ splitOn c s, c ∉ p := by
  induction s with
  | nil => simp [splitOn]
  | cons x xs ih =>
    simp only [splitOn]
    have hne := splitOn_ne_nil c xs
    cases h : splitOn c xs with
    | nil => exact absurd h hne
    | cons p ps =>
      rw [h] at ih
      split
      · intro q hq
        rcases List.mem_cons.mp hq with rfl | hq
        · simp
        · exact ih q hq
      · rename_i hx
        intro q hq
        rcases List.mem_cons.mp hq with rfl | hq
        · have := ih p (by simp)
          simp only [List.mem_cons, not_or]
          exact ⟨fun h => hx h.symm, this⟩
        · exact ih q (by simp [hq])

theorem splitOn_free {c : Char} {p : List Char} (hp : c ∉ p) : splitOn c p = [p] := by
  induction p with
  | nil => rfl
  | cons x xs ih =>
    simp only [List.mem_cons, not_or] at hp
    simp [splitOn, ih hp.2, Ne.symm hp.1]

theorem splitOn_append {c : Char} {p s : List Char} (hp : c ∉ p) :
    splitOn c (p ++ c :: s) = p :: splitOn c s := by
  induction p with
  | nil => simp [splitOn]
  | cons x xs ih =>
    simp only [List.mem_cons, not_or] at hp
    simp [splitOn, ih hp.2, Ne.symm hp.1]

theorem splitOn_join {c : Char} {ps : List (List Char)} (hne : ps ≠ [])
    (hp : ∀ p ∈ ps, c ∉ p) : splitOn c (joinWith c ps) = ps := by
  induction ps with
  | nil => exact absurd rfl hne
  | cons p ps ih =>
    cases ps with
    | nil => simpa [joinWith] using splitOn_free (hp p (by simp))
    | cons q qs =>
      simp only [joinWith]
      rw [splitOn_append (hp p (by simp)), ih (by simp) (fun r hr => hp r (by simp [hr]))]

theorem splitOn_length_one {c : Char} {s : List Char} :
    (splitOn c s).length = 1 ↔ c ∉ s := by
  constructor
  · intro h
    have hj := join_splitOn c s
    have hm := splitOn_not_mem c s
    match hs : splitOn c s, h with
    | [p], _ =>
      rw [hs] at hj hm
      simp only [joinWith] at hj
      rw [← hj]
      exact hm p (by simp)
  · intro h
    rw [splitOn_free h]; rfl

/-! ## Numbers -/

/-- The digit loop without a bound. -/
def digitsU : Nat → List Char → Option Nat
  | acc, [] => some acc
  | acc, c :: cs =>
    match digit c with
    | .none => .none
    | some d => digitsU (acc * 10 + d) cs

theorem digit_iff {c : Char} {d : Nat} : digit c = some d ↔ d < 10 ∧ c = Char.ofNat (48 + d) := by
  constructor
  · intro h
    simp only [digit] at h
    split at h
    · rename_i hc
      have hd : c.toNat - 48 = d := by simpa using h
      refine ⟨by omega, ?_⟩
      have : 48 + d = c.toNat := by omega
      rw [this]
      exact (Char.ofNat_toNat c).symm
    · simp at h
  · rintro ⟨hd, rfl⟩
    have : ∀ d : Fin 10, digit (Char.ofNat (48 + d.val)) = some d.val := by decide
    exact this ⟨d, hd⟩

theorem digitsU_ge {acc n : Nat} {s : List Char} (h : digitsU acc s = some n) : acc ≤ n := by
  induction s generalizing acc with
  | nil => simp [digitsU] at h; omega
  | cons c cs ih =>
    simp only [digitsU] at h
    split at h
    · simp at h
    · have := ih h; omega

theorem digits_iff {max acc n : Nat} {s : List Char} (hacc : acc ≤ max) :
    digits max acc s = some n ↔ digitsU acc s = some n ∧ n ≤ max := by
  induction s generalizing acc with
  | nil => simp [digits, digitsU]; omega
  | cons c cs ih =>
    simp only [digits, digitsU]
    cases hd : digit c with
    | none => simp
    | some d =>
      dsimp only
      by_cases h1 : acc * 10 > max
      · simp only [h1, if_true]
        constructor
        · simp
        · rintro ⟨h, hn⟩
          have := digitsU_ge h; omega
      · simp only [h1, if_false]
        by_cases h2 : acc * 10 + d > max
        · simp only [h2, if_true]
          constructor
          · simp
          · rintro ⟨h, hn⟩
            have := digitsU_ge h; omega
        · simp only [h2, if_false]
          exact ih (by omega)

theorem digitsU_append {acc : Nat} {s t : List Char} :
    digitsU acc (s ++ t) = (digitsU acc s).bind (fun a => digitsU a t) := by
  induction s generalizing acc with
  | nil => simp [digitsU]
  | cons c cs ih =>
    simp only [List.cons_append, digitsU]
    cases digit c with
    | none => simp
    | some d => simp [ih]

/-! ## IPv6 groups -/

/-- The big-endian bytes of 16-bit groups. -/
def groupBytes : List Nat → List Nat
  | [] => []
  | g :: gs => g / 256 :: g % 256 :: groupBytes gs

theorem groupBytes_length (gs : List Nat) : (groupBytes gs).length = 2 * gs.length := by
  induction gs with
  | nil => rfl
  | cons g gs ih => simp [groupBytes, ih]; omega

theorem groupBytes_set (gs : List Nat) (i b : Nat) :
    ((groupBytes gs).set (2 * i) (b / 256)).set (2 * i + 1) (b % 256)
      = if i < gs.length then groupBytes (gs.set i b) else groupBytes gs := by
  induction gs generalizing i with
  | nil => simp [groupBytes]
  | cons g gs ih =>
    cases i with
    | zero => simp [groupBytes]
    | succ j =>
      have h : 2 * (j + 1) = 2 * j + 1 + 1 := by omega
      rw [h]
      simp only [groupBytes, List.set_cons_succ, List.length_cons, Nat.add_lt_add_iff_right]
      rw [ih j]
      split <;> rfl

theorem putGroup_groupBytes {ck : Bool} {gs : List Nat} {i b : Nat} (hl : gs.length = 8)
    (hi : i < 8) : putGroup ck (groupBytes gs) i b = .ok (groupBytes (gs.set i b)) := by
  have h1 : 2 * i < 16 := by omega
  have h2 : 2 * i % 2 ^ 64 = 2 * i := Nat.mod_eq_of_lt (by omega)
  have h3 : ¬ (2 ^ 64 ≤ 2 * i) := by omega
  unfold putGroup
  rw [h2, groupBytes_set]
  simp [h3, hl, hi]
  omega

/-- Two lists of the same length related entry by entry. -/
inductive All2 {α β : Type} (R : α → β → Prop) : List α → List β → Prop
  | nil : All2 R [] []
  | cons {a b as bs} : R a b → All2 R as bs → All2 R (a :: as) (b :: bs)

/-- Overwriting consecutive entries. -/
def setFrom (gs : List Nat) (i : Nat) : List Nat → List Nat
  | [] => gs
  | n :: ns => setFrom (gs.set i n) (i + 1) ns

theorem setFrom_eq {gs : List Nat} {i : Nat} {ns : List Nat} (h : i + ns.length ≤ gs.length) :
    setFrom gs i ns = gs.take i ++ ns ++ gs.drop (i + ns.length) := by
  induction ns generalizing gs i with
  | nil => simp [setFrom]
  | cons n ns ih =>
    simp only [List.length_cons] at h
    simp only [setFrom]
    rw [ih (by simp; omega)]
    rw [List.take_set, List.drop_set, if_pos (by omega)]
    have h2 : (List.take (i + 1) gs).set i n = gs.take i ++ [n] := by
      rw [List.set_eq_take_append_cons_drop, if_pos (by simp; omega)]
      simp [List.take_take]
    rw [h2]
    simp only [List.length_cons, List.append_assoc, List.singleton_append]
    rw [show i + 1 + ns.length = i + (ns.length + 1) by omega]

theorem setFrom_length {gs : List Nat} {i : Nat} {ns : List Nat} :
    (setFrom gs i ns).length = gs.length := by
  induction ns generalizing gs i with
  | nil => rfl
  | cons n ns ih => simp [setFrom, ih]

theorem v6loop_fields {ck : Bool} {n : Nat} {fs rest : List (List Char)} {ns : List Nat}
    {gs : List Nat} {i : Nat} {seen : Bool}
    (hf : All2 (fun f m => parseU 65535 f = some m) fs ns)
    (hl : gs.length = 8) (hi : i + ns.length ≤ 8) :
    v6loop ck n (fs ++ rest) (groupBytes gs) i seen
      = v6loop ck n rest (groupBytes (setFrom gs i ns)) (i + ns.length) seen := by
  induction hf generalizing gs i with
  | nil => rfl
  | @cons f m fs ns h1 h2 ih =>
    simp only [List.length_cons] at hi
    have hne : f ≠ [] := by
      rintro rfl; simp [parseU] at h1
    simp only [List.cons_append, v6loop, hne, if_false, h1]
    rw [putGroup_groupBytes hl (by omega)]
    dsimp only
    rw [ih (by simpa using hl) (by omega)]
    simp only [setFrom, List.length_cons]
    congr 1
    omega

theorem replicate_groups : List.replicate 16 0 = groupBytes (List.replicate 8 0) := by decide

/-- With at most eight pieces the index never leaves the array. -/
theorem v6loop_no_panic {ck : Bool} {n : Nat} (hn : n ≤ 8) (ps : List (List Char))
    (arr : List Nat) (i : Nat) (seen : Bool)
    (hi : if seen then i + ps.length ≤ 8 else i + ps.length = n) :
    v6loop ck n ps arr i seen ≠ .panic := by
  induction ps generalizing arr i seen with
  | nil => simp [v6loop]
  | cons p ps ih =>
    simp only [List.length_cons] at hi
    simp only [v6loop]
    split
    · split
      · simp
      · rename_i hs
        simp only [hs] at hi
        simp only [Bool.false_eq_true, if_false] at hi
        simp only [numZeros, hn, if_true]
        have h1 : ¬ (8 - n + 1 = 0) := by omega
        have h2 : ¬ (2 ^ 64 ≤ i + (8 - n + 1)) := by omega
        have h3 : (i + (8 - n + 1)) % 2 ^ 64 = i + (8 - n + 1) := Nat.mod_eq_of_lt (by omega)
        simp only [h1, h2, false_and, if_false]
        rw [h3]
        apply ih
        simp only [if_true]; omega
    · cases parseU 65535 p with
      | none => simp
      | some b =>
        dsimp only
        have hi8 : i < 8 := by
          cases seen
          · simp only [Bool.false_eq_true, if_false] at hi; omega
          · simp only [if_true] at hi; omega
        have h2 : 2 * i % 2 ^ 64 = 2 * i := Nat.mod_eq_of_lt (by omega)
        have h3 : ¬ (2 ^ 64 ≤ 2 * i) := by omega
        have h4 : 2 * i + 1 < 16 := by omega
        simp only [putGroup, h2, h3, h4, false_and, if_false, if_true]
        apply ih
        cases seen
        · simp only [Bool.false_eq_true, if_false] at hi ⊢; omega
        · simp only [if_true] at hi ⊢; omega

end Verif.IpText
