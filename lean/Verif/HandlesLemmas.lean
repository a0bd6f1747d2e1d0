import Verif.Handles

/-! # Lemmas about the handle tables -/

namespace Verif.Handles

theorem asI32_small {n : Nat} (h : n < 2147483648) : asI32 n = n := by
  unfold asI32
  rw [BitVec.toInt_eq_toNat_cond, BitVec.toNat_ofNat]
  omega

theorem firstFree_some {t : List (Option Nat)} {i : Nat} (h : firstFree t = some i) :
    t[i]? = some none := by
  induction t generalizing i with
  | nil => simp [firstFree] at h
  | cons a t ih =>
    cases a with
    | none => simp [firstFree] at h; subst h; rfl
    | some o =>
      simp only [firstFree, Option.map_eq_some_iff] at h
      obtain ⟨j, hj, rfl⟩ := h
      simpa using ih hj

theorem firstFree_none {t : List (Option Nat)} (h : firstFree t = none) (i : Nat) :
    t[i]? ≠ some none := by
  induction t generalizing i with
  | nil => simp
  | cons a t ih =>
    cases a with
    | none => simp [firstFree] at h
    | some o =>
      simp only [firstFree, Option.map_eq_none_iff] at h
      cases i with
      | zero => simp
      | succ i => simpa using ih h i

theorem firstFree_least {t : List (Option Nat)} {i : Nat} (h : firstFree t = some i) :
    ∀ j, j < i → t[j]? ≠ some none := by
  induction t generalizing i with
  | nil => simp [firstFree] at h
  | cons a t ih =>
    cases a with
    | none => simp [firstFree] at h; subst h; intro j hj; omega
    | some o =>
      simp only [firstFree, Option.map_eq_some_iff] at h
      obtain ⟨j, hj, rfl⟩ := h
      intro k hk
      cases k with
      | zero => simp
      | succ k => simpa using ih hj k (by omega)

/-- Entry `i` of a table, `none` beyond its end. -/
def at' (t : List (Option Nat)) (i : Nat) : Option Nat := (t[i]?).getD none

theorem at'_out {t : List (Option Nat)} {i : Nat} (h : t.length ≤ i) : at' t i = none := by
  simp [at', List.getElem?_eq_none h]

theorem find_small {t : List (Option Nat)} (ht : t.length < 2147483648) (h : Int) :
    find t h = if 0 ≤ h then at' t h.toNat else none := by
  unfold find
  rw [asI32_small ht]
  by_cases h0 : 0 ≤ h
  · by_cases h1 : h < t.length
    · simp [h0, h1, at']
    · rw [if_neg (by omega), if_pos h0, at'_out (by omega)]
  · rw [if_neg (by omega), if_neg h0]

theorem claim_free (t : List (Option Nat)) : at' t (claim t).1 = none := by
  unfold claim
  cases h : firstFree t with
  | none => exact at'_out (Nat.le_refl _)
  | some i => simp [at', firstFree_some h]

theorem claim_le (t : List (Option Nat)) : (claim t).1 ≤ t.length := by
  unfold claim
  cases h : firstFree t with
  | none => exact Nat.le_refl _
  | some i =>
    have := firstFree_some h
    rw [List.getElem?_eq_some_iff] at this
    exact Nat.le_of_lt this.1

theorem claim_lt (t : List (Option Nat)) : (claim t).1 < (claim t).2.length := by
  unfold claim
  cases h : firstFree t with
  | none => simp
  | some i =>
    have := firstFree_some h
    rw [List.getElem?_eq_some_iff] at this
    exact this.1

theorem claim_length (t : List (Option Nat)) : (claim t).2.length ≤ t.length + 1 := by
  unfold claim
  cases h : firstFree t <;> simp

theorem claim_at (t : List (Option Nat)) (i : Nat) : at' (claim t).2 i = at' t i := by
  unfold claim
  cases h : firstFree t with
  | some i => rfl
  | none =>
    simp only [at', List.getElem?_append]
    split
    · rfl
    · rename_i hi
      rw [List.getElem?_eq_none (by omega : t.length ≤ i)]
      cases hx : i - t.length <;> simp

theorem set_at (t : List (Option Nat)) (i : Nat) (v : Option Nat) (hi : i < t.length) (j : Nat) :
    at' (t.set i v) j = if j = i then v else at' t j := by
  unfold at'
  rw [List.getElem?_set]
  by_cases hij : i = j
  · subst hij; simp [hi]
  · rw [if_neg hij, if_neg (fun e => hij e.symm)]

theorem copyTab_length (n : Nat) (t : List (Option Nat)) :
    (copyTab n t).1.length = t.length := by
  induction t generalizing n with
  | nil => rfl
  | cons a t ih => cases a <;> simp [copyTab, ih]

theorem copyTab_le (n : Nat) (t : List (Option Nat)) : n ≤ (copyTab n t).2 := by
  induction t generalizing n with
  | nil => exact Nat.le_refl _
  | cons a t ih =>
    cases a with
    | none => exact ih n
    | some o => exact Nat.le_trans (Nat.le_succ n) (ih (n + 1))

theorem copyTab_none (n : Nat) (t : List (Option Nat)) (i : Nat) :
    at' (copyTab n t).1 i = none ↔ at' t i = none := by
  induction t generalizing n i with
  | nil => rfl
  | cons a t ih =>
    cases a <;> cases i <;> simp_all [copyTab, at']

theorem copyTab_range (n : Nat) (t : List (Option Nat)) (i o : Nat)
    (h : at' (copyTab n t).1 i = some o) : n ≤ o ∧ o < (copyTab n t).2 := by
  induction t generalizing n i with
  | nil => simp [at', copyTab] at h
  | cons a t ih =>
    cases a with
    | none =>
      cases i with
      | zero => simp [at', copyTab] at h
      | succ i => exact ih n i (by simpa [at', copyTab] using h)
    | some p =>
      cases i with
      | zero =>
        simp [at', copyTab] at h; subst h
        exact ⟨Nat.le_refl _, copyTab_le (n + 1) t⟩
      | succ i =>
        have := ih (n + 1) i (by simpa [at', copyTab] using h)
        simp only [copyTab]; omega

theorem copyTab_inj (n : Nat) (t : List (Option Nat)) (i j o : Nat)
    (h : at' (copyTab n t).1 i = some o) (h' : at' (copyTab n t).1 j = some o) : i = j := by
  induction t generalizing n i j with
  | nil => simp [at', copyTab] at h
  | cons a t ih =>
    cases a with
    | none =>
      cases i with
      | zero => simp [at', copyTab] at h
      | succ i =>
        cases j with
        | zero => simp [at', copyTab] at h'
        | succ j =>
          rw [ih n i j (by simpa [at', copyTab] using h) (by simpa [at', copyTab] using h')]
    | some p =>
      cases i with
      | zero =>
        cases j with
        | zero => rfl
        | succ j =>
          have h1 : n = o := by simpa [at', copyTab] using h
          have := copyTab_range (n + 1) t j o (by simpa [at', copyTab] using h')
          omega
      | succ i =>
        cases j with
        | zero =>
          have h1 : n = o := by simpa [at', copyTab] using h'
          have := copyTab_range (n + 1) t i o (by simpa [at', copyTab] using h)
          omega
        | succ j =>
          rw [ih (n + 1) i j (by simpa [at', copyTab] using h) (by simpa [at', copyTab] using h')]

end Verif.Handles
