import Verif.IpTextLemmas

/-!
# Textual IP addresses: C59
-/

namespace Verif.IpText

/-! ## Specification -/

/-- Decimal text of a number, without leading zeros, the way `inet_ntoa` prints a byte. -/
def dec (n : Nat) : List Char := (toString n).toList

/-- `inet_ntoa`: dotted decimal text of four bytes. -/
def dotted (a b c d : Nat) : List Char :=
  dec a ++ '.' :: (dec b ++ '.' :: (dec c ++ '.' :: dec d))

/-- The number a string of decimal digits denotes. -/
inductive Decimal : List Char → Nat → Prop
  | one {c : Char} {d : Nat} : d < 10 → c = Char.ofNat (48 + d) → Decimal [c] d
  | more {s : List Char} {n : Nat} {c : Char} {d : Nat} :
      Decimal s n → d < 10 → c = Char.ofNat (48 + d) → Decimal (s ++ [c]) (10 * n + d)

/-- A field: decimal digits, possibly after one plus sign, denoting `n`. -/
def Field (s : List Char) (n : Nat) : Prop := Decimal s n ∨ ∃ t, s = '+' :: t ∧ Decimal t n

/-! ## Numbers -/

theorem decimal_digitsU {s : List Char} {n : Nat} (h : Decimal s n) :
    s ≠ [] ∧ digitsU 0 s = some n := by
  induction h with
  | one hd hc =>
    refine ⟨by simp, ?_⟩
    simp [digitsU, digit_iff.mpr ⟨hd, hc⟩]
  | more _ hd hc ih =>
    refine ⟨by simp, ?_⟩
    rw [digitsU_append, ih.2]
    simp [digitsU, digit_iff.mpr ⟨hd, hc⟩, Nat.mul_comm]

theorem digitsU_decimal {s : List Char} : ∀ {n : Nat}, s ≠ [] → digitsU 0 s = some n →
    Decimal s n := by
  suffices H : ∀ (k : Nat) (s : List Char) (n : Nat), s.length = k → s ≠ [] →
      digitsU 0 s = some n → Decimal s n from fun {n} h1 h2 => H _ s n rfl h1 h2
  intro k
  induction k with
  | zero =>
    intro s n hl hne
    exact absurd (List.length_eq_zero_iff.mp hl) hne
  | succ k ih =>
    intro s n hl hne h
    obtain ⟨t, c, rfl⟩ : ∃ t c, s = t ++ [c] :=
      ⟨s.dropLast, s.getLast hne, (List.dropLast_concat_getLast hne).symm⟩
    rw [digitsU_append] at h
    cases ht : digitsU 0 t with
    | none => rw [ht] at h; simp at h
    | some m =>
      rw [ht] at h
      simp only [Option.bind_some, digitsU] at h
      cases hd : digit c with
      | none => rw [hd] at h; simp at h
      | some d =>
        rw [hd] at h
        simp only [Option.some.injEq] at h
        obtain ⟨hd1, hd2⟩ := digit_iff.mp hd
        subst h
        by_cases hte : t = []
        · subst hte
          simp only [digitsU, Option.some.injEq] at ht
          subst ht
          simpa using Decimal.one hd1 hd2
        · have := Decimal.more (ih t m (by simp at hl; omega) hte ht) hd1 hd2
          rw [Nat.mul_comm] at this
          exact this

theorem decimal_head {s : List Char} {n : Nat} (h : Decimal s n) :
    ∀ c ∈ s, ∃ d, d < 10 ∧ c = Char.ofNat (48 + d) := by
  induction h with
  | one hd hc => intro c h; simp at h; subst h; exact ⟨_, hd, hc⟩
  | more _ hd hc ih =>
    intro c h
    rcases List.mem_append.mp h with h | h
    · exact ih c h
    · simp at h; subst h; exact ⟨_, hd, hc⟩

theorem not_digit {c : Char} (hc : c = '+' ∨ c = '-' ∨ c = '.' ∨ c = ':' ∨ c = ' ' ∨ c = '\n') :
    ¬ ∃ d, d < 10 ∧ c = Char.ofNat (48 + d) := by
  rintro ⟨d, hd⟩
  have := digit_iff.mpr hd
  rcases hc with rfl | rfl | rfl | rfl | rfl | rfl <;> revert this <;> simp [digit]

/-- A number is read exactly when the text is decimal digits (after an optional plus sign)
whose value is in range, and the value read is the one denoted. -/
theorem parse_exact (max : Nat) (s : List Char) (n : Nat) :
    parseU max s = some n ↔ Field s n ∧ n ≤ max := by
  have key : ∀ t : List Char, t ≠ [] → (digits max 0 t = some n ↔ Decimal t n ∧ n ≤ max) := by
    intro t ht
    rw [digits_iff (Nat.zero_le max)]
    constructor
    · rintro ⟨h, hn⟩; exact ⟨digitsU_decimal ht h, hn⟩
    · rintro ⟨h, hn⟩; exact ⟨(decimal_digitsU h).2, hn⟩
  have hplus : ∀ t, ¬ Decimal ('+' :: t) n := fun t h =>
    not_digit (Or.inl rfl) (decimal_head h '+' (by simp))
  match s with
  | [] =>
    simp only [parseU, Field]
    constructor
    · simp
    · rintro ⟨h | ⟨t, ht, _⟩, _⟩
      · exact absurd rfl (decimal_digitsU h).1
      · simp at ht
  | [c] =>
    simp only [parseU]
    split
    · rename_i hc
      constructor
      · simp
      · rintro ⟨h | ⟨t, ht, h⟩, _⟩
        · exact absurd (decimal_head h c (by simp))
            (not_digit (by rcases hc with h | h <;> simp [h]))
        · simp only [List.cons.injEq] at ht
          exact absurd ht.2.symm (decimal_digitsU h).1
    · rename_i hc
      rw [key _ (by simp)]
      constructor
      · rintro ⟨h, hn⟩; exact ⟨Or.inl h, hn⟩
      · rintro ⟨h | ⟨t, ht, h⟩, hn⟩
        · exact ⟨h, hn⟩
        · simp only [List.cons.injEq] at ht
          exact absurd (Or.inl ht.1) hc
  | c :: c' :: cs =>
    simp only [parseU]
    split
    · rename_i hc
      subst hc
      rw [key _ (by simp)]
      constructor
      · rintro ⟨h, hn⟩; exact ⟨Or.inr ⟨_, rfl, h⟩, hn⟩
      · rintro ⟨h | ⟨t, ht, h⟩, hn⟩
        · exact absurd h (hplus _)
        · simp only [List.cons.injEq, true_and] at ht
          exact ⟨ht ▸ h, hn⟩
    · rename_i hc
      rw [key _ (by simp)]
      constructor
      · rintro ⟨h, hn⟩; exact ⟨Or.inl h, hn⟩
      · rintro ⟨h | ⟨t, ht, h⟩, hn⟩
        · exact ⟨h, hn⟩
        · simp only [List.cons.injEq] at ht
          exact absurd ht.1 hc

example : parseU 255 "007".toList = some 7 ∧ parseU 255 "+255".toList = some 255
    ∧ parseU 255 "256".toList = none ∧ parseU 255 "+".toList = none
    ∧ parseU 255 "1a".toList = none := by decide

theorem field_chars {s : List Char} {n : Nat} (h : Field s n) :
    '.' ∉ s ∧ ':' ∉ s ∧ ' ' ∉ s ∧ '\n' ∉ s ∧ s ≠ [] := by
  have key : ∀ t, Decimal t n → '.' ∉ t ∧ ':' ∉ t ∧ ' ' ∉ t ∧ '\n' ∉ t ∧ t ≠ [] := by
    intro t ht
    have := decimal_head ht
    exact ⟨fun h => not_digit (by simp) (this _ h), fun h => not_digit (by simp) (this _ h),
      fun h => not_digit (by simp) (this _ h), fun h => not_digit (by simp) (this _ h),
      (decimal_digitsU ht).1⟩
  rcases h with h | ⟨t, rfl, h⟩
  · exact key s h
  · obtain ⟨h1, h2, h3, h4, _⟩ := key t h
    simp [h1, h2, h3, h4]

/-! ## IPv4 -/

theorem v4loop_some {ps : List (List Char)} {acc bs : List Nat} :
    v4loop ps acc = some bs ↔
      ∃ ns, bs = acc ++ ns ∧ All2 (fun p n => Field p n ∧ n ≤ 255) ps ns := by
  induction ps generalizing acc with
  | nil =>
    simp only [v4loop, Option.some.injEq]
    constructor
    · rintro rfl; exact ⟨[], by simp, .nil⟩
    · rintro ⟨ns, rfl, h⟩; cases h; simp
  | cons p ps ih =>
    simp only [v4loop]
    cases hp : parseU 255 p with
    | none =>
      constructor
      · simp
      · rintro ⟨ns, rfl, h⟩
        cases h with
        | cons h _ =>
          have := (parse_exact 255 p _).mpr h
          rw [hp] at this; simp at this
    | some b =>
      dsimp only
      rw [ih]
      constructor
      · rintro ⟨ns, rfl, h⟩
        exact ⟨b :: ns, by simp, .cons ((parse_exact 255 p b).mp hp) h⟩
      · rintro ⟨ns, rfl, h⟩
        cases h with
        | cons h ht =>
          have := (parse_exact 255 p _).mpr h
          rw [hp] at this
          simp only [Option.some.injEq] at this
          subst this
          exact ⟨_, by simp, ht⟩

/-- Text is read as an IPv4 address exactly when it is four decimal fields of value at most 255
joined by dots, and the address read consists of those four values in order. -/
theorem v4_exact (ck : Bool) (s : List Char) (bs : List Nat) :
    fromString ck s = .ok (.v4 bs) ↔
      ∃ p q r t a b c d, s = p ++ '.' :: (q ++ '.' :: (r ++ '.' :: t))
        ∧ (Field p a ∧ a ≤ 255) ∧ (Field q b ∧ b ≤ 255) ∧ (Field r c ∧ c ≤ 255)
        ∧ (Field t d ∧ d ≤ 255) ∧ bs = [a, b, c, d] := by
  constructor
  · intro h
    simp only [fromString] at h
    split at h
    · split at h <;> simp at h
    · split at h
      · rename_i hl
        cases hv : v4loop (splitOn '.' s) [] with
        | none => rw [hv] at h; simp at h
        | some bs' =>
          rw [hv] at h
          simp only [Res.ok.injEq, Ip.v4.injEq] at h
          subst h
          obtain ⟨ns, hns, hall⟩ := v4loop_some.mp hv
          have hj := join_splitOn '.' s
          match hs : splitOn '.' s, hl.1 with
          | [p, q, r, t], _ =>
            rw [hs] at hall hj
            cases hall with
            | cons ha hall => cases hall with
              | cons hb hall => cases hall with
                | cons hc hall => cases hall with
                  | cons hd hall =>
                    cases hall
                    exact ⟨p, q, r, t, _, _, _, _, by rw [← hj]; rfl, ha, hb, hc, hd,
                      by simp [hns]⟩
      · simp at h
  · rintro ⟨p, q, r, t, a, b, c, d, rfl, ha, hb, hc, hd, rfl⟩
    have fa := field_chars ha.1
    have fb := field_chars hb.1
    have fc := field_chars hc.1
    have fd := field_chars hd.1
    have hsp : splitOn '.' (p ++ '.' :: (q ++ '.' :: (r ++ '.' :: t))) = [p, q, r, t] := by
      rw [splitOn_append fa.1, splitOn_append fb.1, splitOn_append fc.1, splitOn_free fd.1]
    have hsc : (splitOn ':' (p ++ '.' :: (q ++ '.' :: (r ++ '.' :: t)))).length = 1 := by
      rw [splitOn_length_one]
      simp [fa.2.1, fb.2.1, fc.2.1, fd.2.1]
    have hv : v4loop [p, q, r, t] [] = some [a, b, c, d] :=
      v4loop_some.mpr ⟨[a, b, c, d], by simp, .cons ha (.cons hb (.cons hc (.cons hd .nil)))⟩
    simp only [fromString, hsp, hsc, List.length_cons, List.length_nil, hv]
    simp

theorem dec_field {n : Nat} (h : n ≤ 255) : Field (dec n) n := by
  have : ∀ n : Fin 256, parseU 255 (dec n.val) = some n.val := by decide +kernel
  exact ((parse_exact 255 _ _).mp (this ⟨n, by omega⟩)).1

/-- Reading back what `inet_ntoa` prints gives the address, byte for byte. -/
theorem v4_round_trip (ck : Bool) (a b c d : Nat)
    (ha : a ≤ 255) (hb : b ≤ 255) (hc : c ≤ 255) (hd : d ≤ 255) :
    fromString ck (dotted a b c d) = .ok (.v4 [a, b, c, d]) :=
  (v4_exact ck _ _).mpr ⟨dec a, dec b, dec c, dec d, a, b, c, d, rfl, ⟨dec_field ha, ha⟩,
    ⟨dec_field hb, hb⟩, ⟨dec_field hc, hc⟩, ⟨dec_field hd, hd⟩, rfl⟩

example : fromString true "192.168.0.17".toList = .ok (.v4 [192, 168, 0, 17]) := by
  have h : "192.168.0.17".toList = dotted 192 168 0 17 := by decide
  rw [h]
  exact v4_round_trip _ _ _ _ _ (by omega) (by omega) (by omega) (by omega)

/-- Text that contains no colon never makes the reader panic. -/
theorem v4_no_panic (ck : Bool) (s : List Char) (h : ':' ∉ s) : fromString ck s ≠ .panic := by
  have := splitOn_length_one.mpr h
  simp only [fromString, this]
  simp only [gt_iff_lt, Nat.lt_irrefl, and_false, if_false]
  split
  · split <;> simp
  · simp

/-! ## IPv6 -/

/-- Text of 16-bit groups joined by colons, each group a decimal field. -/
theorem v6_full_partial (ck : Bool) (fs : List (List Char)) (gs : List Nat)
    (hf : All2 (fun f g => Field f g ∧ g ≤ 65535) fs gs) (hl : gs.length = 8) :
    fromString ck (joinWith ':' fs) = .ok (.v6 (groupBytes gs)) := by
  have hp : All2 (fun f m => parseU 65535 f = some m) fs gs := by
    clear hl
    induction hf with
    | nil => exact .nil
    | cons h _ ih => exact .cons ((parse_exact _ _ _).mpr h) ih
  have hlen : fs.length = gs.length := by
    clear hl hp
    induction hf with
    | nil => rfl
    | cons _ _ ih => simp [ih]
  have hch : ∀ f ∈ fs, ':' ∉ f ∧ '.' ∉ f := by
    clear hl hp hlen
    induction hf with
    | nil => simp
    | cons h _ ih =>
      intro f hf
      rcases List.mem_cons.mp hf with rfl | hf
      · exact ⟨(field_chars h.1).2.1, (field_chars h.1).1⟩
      · exact ih f hf
  have hne : fs ≠ [] := by rintro rfl; simp at hlen; omega
  have hs := splitOn_join (c := ':') hne (fun f hf => (hch f hf).1)
  have hdot : '.' ∉ joinWith ':' fs := by
    clear hp hl hlen hs hne hf
    induction fs with
    | nil => simp [joinWith]
    | cons f fs ih =>
      have := ih (fun g hg => hch g (by simp [hg]))
      cases fs with
      | nil => simpa [joinWith] using (hch f (by simp)).2
      | cons g gs => simp [joinWith, (hch f (by simp)).2, this]
  have h4 := splitOn_length_one.mpr hdot
  simp only [fromString, h4, hs, hlen, hl]
  have hloop := v6loop_fields (ck := ck) (n := 8) (rest := []) (seen := false) (i := 0)
    (gs := List.replicate 8 0) hp rfl (by omega)
  rw [List.append_nil, setFrom_eq (by simp [hl])] at hloop
  rw [replicate_groups, hloop]
  simp [v6loop, hl]

example : fromString true "8193:0:0:0:0:0:0:1".toList
    = .ok (.v6 [32, 1, 0, 0, 0, 0, 0, 0, 0, 0, 0, 0, 0, 0, 0, 1]) := by decide

/-- One `::` between groups stands for as many zero groups as are missing from eight. -/
theorem v6_gap_partial (ck : Bool) (fs gs : List (List Char)) (ms ns : List Nat)
    (hf : All2 (fun f g => Field f g ∧ g ≤ 65535) fs ms)
    (hg : All2 (fun f g => Field f g ∧ g ≤ 65535) gs ns)
    (h1 : ms ≠ []) (h2 : ns ≠ []) (hl : ms.length + ns.length ≤ 7) :
    fromString ck (joinWith ':' (fs ++ [] :: gs))
      = .ok (.v6 (groupBytes (ms ++ List.replicate (8 - (ms.length + ns.length)) 0 ++ ns))) := by
  have conv : ∀ {fs : List (List Char)} {gs : List Nat},
      All2 (fun f g => Field f g ∧ g ≤ 65535) fs gs →
      All2 (fun f m => parseU 65535 f = some m) fs gs ∧ fs.length = gs.length
        ∧ ∀ f ∈ fs, ':' ∉ f ∧ '.' ∉ f := by
    intro fs gs hf
    induction hf with
    | nil => exact ⟨.nil, rfl, by simp⟩
    | cons h _ ih =>
      refine ⟨.cons ((parse_exact _ _ _).mpr h) ih.1, by simp [ih.2.1], ?_⟩
      intro f hf
      rcases List.mem_cons.mp hf with rfl | hf
      · exact ⟨(field_chars h.1).2.1, (field_chars h.1).1⟩
      · exact ih.2.2 f hf
  obtain ⟨pf, lf, cf⟩ := conv hf
  obtain ⟨pg, lg, cg⟩ := conv hg
  have hch : ∀ f ∈ fs ++ [] :: gs, ':' ∉ f ∧ '.' ∉ f := by
    intro f hf
    rcases List.mem_append.mp hf with h | h
    · exact cf f h
    · rcases List.mem_cons.mp h with rfl | h
      · simp
      · exact cg f h
  have hs := splitOn_join (c := ':') (ps := fs ++ [] :: gs) (by simp) (fun f hf => (hch f hf).1)
  have hdot : '.' ∉ joinWith ':' (fs ++ [] :: gs) := by
    generalize fs ++ [] :: gs = l at hch
    clear hs
    induction l with
    | nil => simp [joinWith]
    | cons f fs ih =>
      have := ih (fun g hg => hch g (by simp [hg]))
      cases fs with
      | nil => simpa [joinWith] using (hch f (by simp)).2
      | cons g gs => simp [joinWith, (hch f (by simp)).2, this]
  have h4 := splitOn_length_one.mpr hdot
  have hm : 0 < ms.length := List.length_pos_iff.mpr h1
  have hn : 0 < ns.length := List.length_pos_iff.mpr h2
  simp only [fromString, h4, hs]
  have hlt : 1 < (fs ++ [] :: gs).length := by simp; omega
  simp only [gt_iff_lt, hlt, and_self, if_true]
  have hlen : (fs ++ [] :: gs).length = ms.length + ns.length + 1 := by simp [lf, lg]; omega
  rw [hlen, replicate_groups,
    v6loop_fields (i := 0) pf (by simp) (by omega), setFrom_eq (by simp; omega)]
  simp only [v6loop, if_true, numZeros]
  have e1 : ms.length + ns.length + 1 ≤ 8 := by omega
  simp only [e1, if_true]
  have e2 : ¬ (8 - (ms.length + ns.length + 1) + 1 = 0) := by omega
  have e3 : ¬ (2 ^ 64 ≤ 0 + ms.length + (8 - (ms.length + ns.length + 1) + 1)) := by omega
  have e4 : (0 + ms.length + (8 - (ms.length + ns.length + 1) + 1)) % 2 ^ 64
      = 8 - ns.length := by
    rw [Nat.mod_eq_of_lt (by omega)]; omega
  simp only [e2, e3, e4, false_and, if_false, Bool.false_eq_true]
  have hloop := v6loop_fields (ck := ck) (n := ms.length + ns.length + 1) (rest := [])
    (seen := true) (i := 8 - ns.length)
    (gs := List.take 0 (List.replicate 8 0) ++ ms
      ++ List.drop (0 + ms.length) (List.replicate 8 0)) pg
      (by simp; omega) (by omega)
  rw [List.append_nil, setFrom_eq (by simp; omega)] at hloop
  rw [hloop]
  simp only [v6loop, Res.ok.injEq, Ip.v6.injEq]
  congr 1
  have e5 : 8 - ns.length = ms.length + (8 - (ms.length + ns.length)) := by omega
  rw [e5]
  have e6 : ms.length + (8 - (ms.length + ns.length)) + ns.length = 8 := by omega
  rw [e6]
  simp only [List.take_zero, List.nil_append, Nat.zero_add, List.drop_replicate,
    List.take_append, List.drop_append]
  rw [List.take_of_length_le (l := ms) (by omega), List.drop_eq_nil_of_le (as := ms) (by omega),
    Nat.add_sub_cancel_left, List.take_replicate,
    Nat.min_eq_left (by omega), show 8 - ms.length - (8 - ms.length) = 0 by omega]
  simp

example : fromString true "8193::7:8".toList
    = .ok (.v6 [32, 1, 0, 0, 0, 0, 0, 0, 0, 0, 0, 0, 0, 7, 0, 8]) := by decide

/-- Text with at most seven colons never makes the reader panic. -/
theorem v6_no_panic_partial (ck : Bool) (s : List Char) (h : (splitOn ':' s).length ≤ 8) :
    fromString ck s ≠ .panic := by
  have := v6loop_no_panic (ck := ck) h (splitOn ':' s) (List.replicate 16 0) 0 false (by simp)
  simp only [fromString]
  split
  · split
    · simp
    · simp
    · rename_i h; exact absurd h this
  · split
    · split <;> simp
    · simp

/-! ## Where the reader departs from the standard text form of IPv6 (RFC 4291, 2.2) -/

/-- Groups are hexadecimal in the standard form, decimal here: group `10` is sixteen in the
standard and ten here, and letters are rejected. -/
theorem v6_hexadecimal_violated :
    fromString true "0:0:0:0:0:0:0:10".toList
      = .ok (.v6 [0, 0, 0, 0, 0, 0, 0, 0, 0, 0, 0, 0, 0, 0, 0, 10])
    ∧ fromString true "fe80:0:0:0:0:0:0:1".toList = .none := by decide

/-- The loopback and unspecified addresses in their usual form, and every form with `::` at
either end, are rejected. -/
theorem v6_edge_gap_violated :
    fromString true "::1".toList = .none ∧ fromString true "::".toList = .none
    ∧ fromString true "8193::".toList = .none := by decide

/-- Too few groups are accepted. -/
theorem v6_short_violated :
    fromString true "1:2".toList
      = .ok (.v6 [0, 1, 0, 2, 0, 0, 0, 0, 0, 0, 0, 0, 0, 0, 0, 0]) := by decide

/-- Too many groups abort the program instead of being rejected, with or without overflow
checks; without them a malformed text with `::` is even read as an address. -/
theorem v6_long_violated :
    fromString true "1:2:3:4:5:6:7:8:9".toList = .panic
    ∧ fromString false "1:2:3:4:5:6:7:8:9".toList = .panic
    ∧ fromString true "1::2:3:4:5:6:7:8".toList = .panic
    ∧ fromString false "1::2:3:4:5:6:7:8:9".toList
      = .ok (.v6 [0, 2, 0, 3, 0, 4, 0, 5, 0, 6, 0, 7, 0, 8, 0, 9]) := by decide +kernel

/-! ## The device list -/

/-- One line of the device file as `gen_netdevs.c` prints it. -/
structure Dev where
  name : List Char
  flags : List Char
  a : Nat
  b : Nat
  c : Nat
  d : Nat
  /-- netmask and broadcast address -/
  rest : List Char

/-- What `printf("%s %d %s %s %s\n", …)` writes. -/
def Dev.line (v : Dev) : List Char :=
  v.name ++ ' ' :: (v.flags ++ ' ' :: (dotted v.a v.b v.c v.d ++ ' ' :: v.rest))

/-- A line that can occur: no stray separators, bytes in range. -/
structure Dev.Ok (v : Dev) : Prop where
  name : ' ' ∉ v.name ∧ '\n' ∉ v.name
  flags : ' ' ∉ v.flags ∧ '\n' ∉ v.flags
  rest : '\n' ∉ v.rest
  bytes : v.a ≤ 255 ∧ v.b ≤ 255 ∧ v.c ≤ 255 ∧ v.d ≤ 255

/-- The file: each line followed by a newline. -/
def devFile : List Dev → List Char
  | [] => []
  | v :: vs => v.line ++ '\n' :: devFile vs

theorem dotted_chars {a b c d : Nat} (ha : a ≤ 255) (hb : b ≤ 255) (hc : c ≤ 255)
    (hd : d ≤ 255) : ' ' ∉ dotted a b c d ∧ '\n' ∉ dotted a b c d := by
  have fa := field_chars (dec_field ha)
  have fb := field_chars (dec_field hb)
  have fc := field_chars (dec_field hc)
  have fd := field_chars (dec_field hd)
  simp [dotted, fa, fb, fc, fd]

theorem ipsLoop_devs (ck : Bool) (vs : List Dev) (hok : ∀ v ∈ vs, v.Ok) (acc : List Ip) :
    ipsLoop ck (splitOn '\n' (devFile vs)) acc
      = .ok (acc ++ vs.map fun v => .v4 [v.a, v.b, v.c, v.d]) := by
  induction vs generalizing acc with
  | nil => simp [devFile, splitOn, ipsLoop]
  | cons v vs ih =>
    have hv := hok v (by simp)
    obtain ⟨ha, hb, hc, hd⟩ := hv.bytes
    obtain ⟨hs, hn⟩ := dotted_chars ha hb hc hd
    have hnl : '\n' ∉ v.line := by
      simp [Dev.line, hv.name.2, hv.flags.2, hv.rest, hn]
    simp only [devFile]
    rw [splitOn_append hnl]
    have hne : v.line ≠ [] := by simp [Dev.line]
    have hsp : (splitOn ' ' v.line)[2]? = some (dotted v.a v.b v.c v.d) := by
      simp only [Dev.line]
      rw [splitOn_append hv.name.1, splitOn_append hv.flags.1, splitOn_append hs]
      rfl
    simp only [ipsLoop, hne, if_false, hsp, v4_round_trip ck _ _ _ _ ha hb hc hd]
    rw [ih (fun w hw => hok w (by simp [hw]))]
    simp

/-- From a device file as the project's generator writes it, the list of local addresses is
exactly the devices' addresses in order, followed by the wildcard address. -/
theorem device_list (ck : Bool) (vs : List Dev) (hok : ∀ v ∈ vs, v.Ok) :
    ipsFromIfaddrs ck (devFile vs)
      = .ok ((vs.map fun v => .v4 [v.a, v.b, v.c, v.d]) ++ [.v4 [0, 0, 0, 0]]) := by
  have hz : fromString ck "0.0.0.0".toList = .ok (.v4 [0, 0, 0, 0]) := by
    have := v4_round_trip ck 0 0 0 0 (by omega) (by omega) (by omega) (by omega)
    rwa [show dotted 0 0 0 0 = "0.0.0.0".toList by decide] at this
  simp only [ipsFromIfaddrs, ipsLoop_devs ck vs hok, hz]
  simp

example : ipsFromIfaddrs true
    "lo 73 127.0.0.1 255.0.0.0 127.0.0.1\neth0 4163 10.1.2.3 255.0.0.0 10.255.255.255\n".toList
    = .ok [.v4 [127, 0, 0, 1], .v4 [10, 1, 2, 3], .v4 [0, 0, 0, 0]] := by
  decide +kernel

example : (⟨"lo".toList, "73".toList, 127, 0, 0, 1, "255.0.0.0 127.0.0.1".toList⟩ : Dev).Ok :=
  ⟨by decide, by decide, by decide, by decide⟩

/-- getifaddrs hands over the whole file and leaves the rest of the buffer alone, or fails and
writes nothing; it fails exactly when the buffer is not larger than the file. -/
theorem getifaddrs_exact (file buf : List Char) (count : Nat) (hb : buf.length = count) :
    (file.length < count → ∃ out, getifaddrs file buf count = some out
      ∧ out.length = count ∧ out.take file.length = file
      ∧ out.drop file.length = buf.drop file.length)
    ∧ (count ≤ file.length → getifaddrs file buf count = none) := by
  constructor
  · intro h
    refine ⟨file ++ buf.drop file.length, by simp [getifaddrs, h], ?_, ?_, ?_⟩
    · simp; omega
    · simp
    · simp
  · intro h
    simp [getifaddrs]; omega

end Verif.IpText
