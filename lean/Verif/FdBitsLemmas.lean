import Verif.FdBits
import Verif.SelectProps

/-!
# Lemmas for C100: bits and loops
-/

namespace Verif.FdBits
open Verif.Select

/-! ## Bits -/

theorem toNat_nat {d : Nat} (h : d < 2 ^ 64) : (BitVec.ofInt 64 (d : Int)).toNat = d := by
  rw [BitVec.ofInt_natCast, BitVec.toNat_ofNat, Nat.mod_eq_of_lt h]

theorem wordOf_nat {d : Nat} (h : d < 2 ^ 64) : wordOf d = d / 64 := by unfold wordOf; rw [toNat_nat h]
theorem bitOf_nat {d : Nat} (h : d < 2 ^ 64) : bitOf d = 1#64 <<< (d % 64) := by unfold bitOf; rw [toNat_nat h]

theorem getLsbD_bit (k i : Nat) (hi : i < 64) : (1#64 <<< k).getLsbD i = decide (i = k) := by
  rw [BitVec.getLsbD_shiftLeft]
  by_cases e : i = k
  · subst e; simp [hi]
  · by_cases hl : i < k
    · simp [hl, e]
    · have : i - k ≠ 0 := by omega
      simp [hl, e, BitVec.getLsbD_one, this]

theorem and_bit (w : BitVec 64) (k : Nat) (hk : k < 64) : (w &&& (1#64 <<< k) != 0#64) = w.getLsbD k := by
  cases hb : w.getLsbD k with
  | true =>
    rw [bne_iff_ne]
    intro h
    have := congrArg (fun v => v.getLsbD k) h
    simp only [BitVec.getLsbD_and, getLsbD_bit k k hk, hb] at this
    simp at this
  | false =>
    rw [bne_eq_false_iff_eq]
    apply BitVec.eq_of_getLsbD_eq
    intro i hi
    rw [BitVec.getLsbD_and, getLsbD_bit k i hi]
    by_cases e : i = k
    · subst e; simp [hb]
    · simp [e]

theorem lt_big {d : Nat} (h : d < 1024) : d < 2 ^ 64 := Nat.lt_of_lt_of_le h (by decide)

theorem isSet_nat {r : Raw} (hr : r.length = 16) {d : Nat} (hd : d < 1024) : isSet r d = some (meaning r d) := by
  unfold isSet meaning
  rw [wordOf_nat (lt_big hd), bitOf_nat (lt_big hd)]
  have : d / 64 < r.length := by omega
  rw [List.getElem?_eq_getElem this]
  simp only [Option.map_some, and_bit _ _ (Nat.mod_lt d (by decide : 0 < 64))]

theorem meaning_big {r : Raw} (hr : r.length = 16) {d : Nat} (hd : 1024 ≤ d) : meaning r d = false := by
  unfold meaning
  rw [List.getElem?_eq_none (by omega)]

/-- An update of the word of `d`. -/
theorem set_word {r : Raw} (hr : r.length = 16) {d : Nat} (hd : d < 1024) (f : BitVec 64 → BitVec 64) (e : Nat) :
    meaning (List.set r (d / 64) (f ((r[d / 64]?).getD 0#64))) e =
      if e / 64 = d / 64 then (f ((r[d / 64]?).getD 0#64)).getLsbD (e % 64) else meaning r e := by
  unfold meaning
  have : d / 64 < r.length := by omega
  rw [List.getElem?_set]
  by_cases h : d / 64 = e / 64
  · rw [if_pos h, if_pos this, if_pos h.symm]
  · rw [if_neg h, if_neg (fun a => h a.symm)]

theorem same_bit {d e : Nat} (h : e / 64 = d / 64) : (e % 64 = d % 64) ↔ e = d := by
  constructor
  · intro a; have := Nat.div_add_mod e 64; have := Nat.div_add_mod d 64; omega
  · intro a; rw [a]

theorem meaning_at {r : Raw} (hr : r.length = 16) {d e : Nat} (hd : d < 1024) (h : e / 64 = d / 64) :
    meaning r e = ((r[d / 64]?).getD 0#64).getLsbD (e % 64) := by
  unfold meaning
  have : d / 64 < r.length := by omega
  rw [h, List.getElem?_eq_getElem this]
  rfl

theorem set_nat {r : Raw} (hr : r.length = 16) {d : Nat} (hd : d < 1024) :
    ∃ r', FdBits.set r d = some r' ∧ r'.length = 16 ∧ ∀ e, meaning r' e = (meaning r e || e == d) := by
  have hlt : d / 64 < r.length := by omega
  refine ⟨List.set r (d / 64) (((r[d / 64]?).getD 0#64) ||| (1#64 <<< (d % 64))), ?_, by rw [List.length_set]; exact hr, fun e => ?_⟩
  · unfold FdBits.set
    rw [wordOf_nat (lt_big hd), bitOf_nat (lt_big hd), List.getElem?_eq_getElem hlt]
    rfl
  · rw [set_word hr hd (fun w => w ||| (1#64 <<< (d % 64)))]
    by_cases h : e / 64 = d / 64
    · rw [if_pos h, BitVec.getLsbD_or, getLsbD_bit _ _ (Nat.mod_lt e (by decide)), ← meaning_at hr hd h]
      simp only [same_bit h]; rfl
    · rw [if_neg h]
      have : e ≠ d := fun a => h (by rw [a])
      simp [this]

theorem clear_nat {r : Raw} (hr : r.length = 16) {d : Nat} (hd : d < 1024) :
    ∃ r', FdBits.clear r d = some r' ∧ r'.length = 16 ∧ ∀ e, meaning r' e = (meaning r e && e != d) := by
  have hlt : d / 64 < r.length := by omega
  refine ⟨List.set r (d / 64) (((r[d / 64]?).getD 0#64) &&& ~~~ (1#64 <<< (d % 64))), ?_, by rw [List.length_set]; exact hr, fun e => ?_⟩
  · unfold FdBits.clear
    rw [wordOf_nat (lt_big hd), bitOf_nat (lt_big hd), List.getElem?_eq_getElem hlt]
    rfl
  · rw [set_word hr hd (fun w => w &&& ~~~ (1#64 <<< (d % 64)))]
    by_cases h : e / 64 = d / 64
    · rw [if_pos h, BitVec.getLsbD_and, BitVec.getLsbD_not, getLsbD_bit _ _ (Nat.mod_lt e (by decide)), ← meaning_at hr hd h]
      have : e % 64 < 64 := Nat.mod_lt e (by decide)
      simp only [same_bit h, this, decide_true, Bool.true_and, bne]; rfl
    · rw [if_neg h]
      have : e ≠ d := fun a => h (by rw [a])
      simp [this]

theorem out_of_range {r : Raw} (hr : r.length = 16) {fd : Int} (h1 : -2147483648 ≤ fd) (h2 : fd < 2147483648)
    (h : fd < 0 ∨ 1024 ≤ fd) : r[wordOf fd]? = none := by
  apply List.getElem?_eq_none
  have : 1024 ≤ (BitVec.ofInt 64 fd).toNat := by
    rw [BitVec.toNat_ofInt]
    rcases h with h | h <;> omega
  unfold wordOf
  omega

theorem set_none {r : Raw} (hr : r.length = 16) {fd : Int} (h1 : -2147483648 ≤ fd) (h2 : fd < 2147483648)
    (h : fd < 0 ∨ 1024 ≤ fd) : FdBits.set r fd = none := by
  unfold FdBits.set; rw [out_of_range hr h1 h2 h]; rfl

theorem zero_len : zero.length = 16 := rfl

theorem meaning_zero : meaning zero = emptySet := by
  funext d
  unfold meaning zero emptySet
  rw [List.getElem?_replicate]
  split
  · rfl
  · rename_i w h
    split at h
    · cases h; simp
    · cases h

theorem isEmpty_iff {r : Raw} (hr : r.length = 16) : isEmpty r = true ↔ ∀ d, meaning r d = false := by
  unfold isEmpty
  rw [List.all_eq_true]
  constructor
  · intro h d
    unfold meaning
    cases hg : r[d / 64]? with
    | none => rfl
    | some w =>
      have := h w (List.mem_of_getElem? hg)
      rw [beq_iff_eq] at this
      rw [this]; simp
  · intro h w hw
    rw [beq_iff_eq]
    obtain ⟨k, hk, e⟩ := List.mem_iff_getElem.1 hw
    apply BitVec.eq_of_getLsbD_eq
    intro i hi
    have := h (64 * k + i)
    unfold meaning at this
    rw [show (64 * k + i) / 64 = k by omega, show (64 * k + i) % 64 = i by omega, List.getElem?_eq_getElem hk, e] at this
    simpa using this

/-! ## The loops -/

/-- The abstract accumulator of a concrete one. -/
structure Rel (c : FdBits.Acc) (a : Select.Acc) : Prop where
  len : c.set.length = 16
  klen : c.kernel.length = 16
  set : meaning c.set = a.set
  ret : c.ret = a.ret
  raws : c.raws = a.raws
  kernel : ∀ d, meaning c.kernel d = decide (∃ t ∈ a.raws, t.1 = (d : Int))
  range : ∀ t ∈ a.raws, 0 ≤ t.1 ∧ t.1 < 1024 ∧ t.1 ≤ c.high ∧ t.2 < 1024
  high : 0 ≤ c.high ∧ c.high < 1024

/-- Two results agree. -/
def Same {α β : Type} (R : α → β → Prop) : Except Ret α → Except Ret β → Prop
  | .error x, .error y => x = y
  | .ok a, .ok b => R a b
  | _, _ => False

theorem hit_rel {c : FdBits.Acc} {a : Select.Acc} (h : Rel c a) {fd : Nat} (hd : fd < 1024) : Same Rel (c.hit fd) (.ok (a.hit fd)) := by
  obtain ⟨r', e1, e2, e3⟩ := set_nat h.len hd
  unfold FdBits.Acc.hit
  rw [e1]
  exact ⟨e2, h.klen, by funext e; rw [e3, h.set]; rfl, by simp [Select.Acc.hit, h.ret], h.raws, h.kernel, h.range, h.high⟩

theorem inet_rel {c : FdBits.Acc} {a : Select.Acc} (h : Rel c a) {fd : Nat} (hd : fd < 1024) {raw : Int} (est : Bool)
    (hb : raw < 2147483648) : Same Rel (FdBits.readOne fd (.inet raw est) c) (Select.readOne fd (.inet raw est) a) := by
  unfold FdBits.readOne Select.readOne
  by_cases h0 : raw < 0
  · simp only [if_pos h0]; exact h
  · simp only [if_neg h0]
    by_cases h1 : raw ≥ 1024
    · rw [if_pos (show raw ≥ fdSetMax from h1), set_none h.klen (by omega) hb (.inr h1)]
      rfl
    · rw [if_neg (show ¬ raw ≥ fdSetMax from h1)]
      obtain ⟨d, rfl⟩ := Int.eq_ofNat_of_zero_le (by omega : 0 ≤ raw)
      have hd' : d < 1024 := by omega
      obtain ⟨r', e1, e2, e3⟩ := set_nat h.klen hd'
      rw [e1]
      refine ⟨h.len, e2, h.set, h.ret, by simp [h.raws], ?_, ?_, ?_⟩
      · intro e
        dsimp only
        rw [e3, h.kernel]
        rw [Bool.eq_iff_iff]
        simp only [Bool.or_eq_true, decide_eq_true_eq, beq_iff_eq, List.mem_append, List.mem_singleton]
        constructor
        · rintro (⟨t, t1, t2⟩ | rfl)
          · exact ⟨t, .inl t1, t2⟩
          · exact ⟨_, .inr rfl, rfl⟩
        · rintro ⟨t, t1 | rfl, t2⟩
          · exact .inl ⟨t, t1, t2⟩
          · right; simp at t2; omega
      · intro t ht
        dsimp only at ht ⊢
        rcases List.mem_append.1 ht with ht | ht
        · have := h.range t ht
          split <;> omega
        · rw [List.mem_singleton] at ht; subst ht
          dsimp only
          have := h.high
          split <;> omega
      · have := h.high
        dsimp only
        split <;> omega

/-- Host descriptors are 32-bit numbers. -/
def Narrow (v : View) : Prop := ∀ raw est, v = .inet raw est → raw < 2147483648

theorem readOne_rel {c : FdBits.Acc} {a : Select.Acc} (h : Rel c a) {fd : Nat} (hd : fd < 1024) {v : View} (hv : Narrow v) :
    Same Rel (FdBits.readOne fd v c) (Select.readOne fd v a) := by
  have H := hit_rel h hd
  have P : ∀ p : Pipe.Pipe, Same Rel (if p.selectRead then c.hit fd else .ok c) (.ok (if p.selectRead then a.hit fd else a)) := by
    intro p; split
    · exact H
    · exact h
  cases v with
  | file => exact H
  | epoll => exact H
  | stream => exact h
  | other => rfl
  | pipe p => exact P p
  | inet raw est => exact inet_rel h hd est (hv raw est rfl)
  | unix u =>
    unfold FdBits.readOne Select.readOne
    dsimp only
    cases hn : (if u.st = .inProgress then u.asking.map (!·) else some false) with
    | none => rfl
    | some new =>
      dsimp only
      by_cases h1 : u.st = .listen
      · rw [if_pos h1, if_pos h1]
        cases u.request with
        | none => rfl
        | some b => cases b with
          | true => exact H
          | false => exact h
      · rw [if_neg h1, if_neg h1]
        by_cases h2 : u.st = .connected ∨ new = true
        · rw [if_pos h2, if_pos h2]
          cases u.inp with
          | none => rfl
          | some p => exact P p
        · rw [if_neg h2, if_neg h2]; exact h

theorem readLoop_rel {req : Raw} (hq : req.length = 16) {obs : Nat → Option View} (ho : ∀ d v, obs d = some v → Narrow v) :
    ∀ (fds : List Nat), (∀ d ∈ fds, d < 1024) → ∀ {c : FdBits.Acc} {a : Select.Acc}, Rel c a →
    Same Rel (FdBits.readLoop req obs fds c) (Select.readLoop (meaning req) obs fds a) := by
  intro fds
  induction fds with
  | nil => intro _ c a h; exact h
  | cons fd fds ih =>
    intro hf c a h
    have hd := hf fd (by simp)
    replace ih := @ih (fun d hd => hf d (by simp [hd]))
    unfold FdBits.readLoop Select.readLoop
    rw [isSet_nat hq hd]
    cases hm : meaning req fd with
    | false => simp only [if_true]; exact ih h
    | true =>
      simp only [Bool.true_eq_false, if_false]
      cases hv : obs fd with
      | none => rfl
      | some v =>
        have := readOne_rel h hd (ho fd v hv)
        dsimp only
        cases hc : FdBits.readOne fd v c with
        | error x =>
          rw [hc] at this
          cases ha : Select.readOne fd v a with
          | error y => rw [ha] at this; exact this
          | ok y => rw [ha] at this; exact this.elim
        | ok x =>
          rw [hc] at this
          cases ha : Select.readOne fd v a with
          | error y => rw [ha] at this; exact this.elim
          | ok y => rw [ha] at this; exact ih this

/-! ## The host's answer -/

theorem firsts_find (k : Int) (d : Nat) : ∀ ts : List (Int × Nat), (k, d) ∈ firsts ts ↔ ts.find? (fun t => t.1 == k) = some (k, d) := by
  intro ts
  induction ts with
  | nil => simp [firsts]
  | cons t ts ih =>
    simp only [firsts, List.mem_cons, List.mem_filter, decide_eq_true_eq, ih]
    rw [List.find?_cons]
    by_cases e : t.1 = k
    · simp only [e, beq_self_eq_true]
      constructor
      · rintro (h | ⟨-, h⟩)
        · rw [← h]
        · exact absurd rfl h
      · intro h; left; injection h with h; exact h.symm
    · have e' : (t.1 == k) = false := by simpa using e
      simp only [e']
      constructor
      · rintro (h | ⟨h, -⟩)
        · rw [← h] at e; exact absurd rfl e
        · exact h
      · intro h; exact .inr ⟨h, fun a => e a.symm⟩

theorem find_mem {ts : List (Int × Nat)} {k : Int} {t : Int × Nat} (h : ts.find? (fun t => t.1 == k) = some t) : t ∈ ts ∧ t.1 = k := by
  have := List.find?_some h
  exact ⟨List.mem_of_find?_eq_some h, by simpa using this⟩

theorem find_some {ts : List (Int × Nat)} {k : Int} (h : ∃ t ∈ ts, t.1 = k) : ∃ d, ts.find? (fun t => t.1 == k) = some (k, d) := by
  cases hf : ts.find? (fun t => t.1 == k) with
  | none =>
    obtain ⟨t, t1, t2⟩ := h
    have := List.find?_eq_none.1 hf t t1
    simp [t2] at this
  | some t =>
    have := (find_mem hf).2
    exact ⟨t.2, by rw [← this]⟩

theorem firsts_sub {t : Int × Nat} {ts : List (Int × Nat)} (h : t ∈ firsts ts) : t ∈ ts := (find_mem ((firsts_find t.1 t.2 ts).1 h)).1

theorem firsts_nodup (ts : List (Int × Nat)) : ((firsts ts).map (·.1)).Nodup := by
  induction ts with
  | nil => exact List.nodup_nil
  | cons t ts ih =>
    simp only [firsts, List.map_cons, List.nodup_cons]
    constructor
    · intro h
      obtain ⟨u, u1, u2⟩ := List.mem_map.1 h
      rw [List.mem_filter] at u1
      simp at u1
      exact u1.2 u2
    · exact ih.sublist (List.Sublist.map _ (List.filter_sublist))

theorem count_one (N a : Nat) (h : a < N) (p : Nat → Bool) :
    (List.range N).countP (fun fd => fd == a && p fd) = if p a then 1 else 0 := by
  induction N with
  | zero => omega
  | succ N ih =>
    rw [List.range_succ, List.countP_append]
    by_cases e : a = N
    · subst e
      have : (List.range a).countP (fun fd => fd == a && p fd) = 0 := by
        rw [List.countP_eq_zero]
        intro x hx
        rw [List.mem_range] at hx
        have : x ≠ a := by omega
        simp [this]
      rw [this]
      simp only [List.countP_cons, List.countP_nil, beq_self_eq_true, Bool.true_and, Nat.zero_add]
    · rw [ih (by omega)]
      have : (N == a) = false := by simp; omega
      simp [this]

theorem count_keys (N : Nat) (p : Int → Bool) : ∀ K : List Int, K.Nodup → (∀ k ∈ K, 0 ≤ k ∧ k < N) →
    (List.range N).countP (fun (fd : Nat) => decide ((fd : Int) ∈ K) && p fd) = (K.filter p).length := by
  intro K
  induction K with
  | nil => intro _ _; simp
  | cons k K ih =>
    intro hn hr
    rw [List.nodup_cons] at hn
    obtain ⟨h0, h1⟩ := hr k (by simp)
    obtain ⟨a, rfl⟩ := Int.eq_ofNat_of_zero_le h0
    have ih := ih hn.2 (fun k hk => hr k (by simp [hk]))
    have split : ∀ l : List Nat, l.countP (fun (fd : Nat) => decide ((fd : Int) ∈ (a : Int) :: K) && p fd) =
        l.countP (fun fd => fd == a && p fd) + l.countP (fun (fd : Nat) => decide ((fd : Int) ∈ K) && p fd) := by
      intro l
      induction l with
      | nil => rfl
      | cons x l ihl =>
        simp only [List.countP_cons, ihl]
        by_cases e : x = a
        · subst e
          simp only [List.mem_cons, true_or, decide_true, Bool.true_and, beq_self_eq_true, hn.1, decide_false, Bool.false_and]
          simp; omega
        · have e2 : ¬ (x : Int) = (a : Int) := by omega
          simp only [List.mem_cons, e2, false_or, beq_eq_false_iff_ne.2 e, Bool.false_and]
          simp; omega
    rw [split, count_one N a (by omega), ih, List.filter_cons]
    by_cases hp : p a = true
    · simp [hp]; omega
    · simp [hp]

theorem leaves_meaning (ready : Int → Bool) {k : Raw} (hk : k.length = 16) : ∀ (fds : List Nat), (∀ d ∈ fds, d < 1024) →
    ∀ {s : Raw}, s.length = 16 → (hostLeaves ready k fds s).length = 16 ∧
      ∀ d, meaning (hostLeaves ready k fds s) d = (meaning s d || (decide (d ∈ fds) && meaning k d && ready d)) := by
  intro fds
  induction fds with
  | nil => intro _ s hs; exact ⟨hs, fun d => by simp [hostLeaves]⟩
  | cons fd fds ih =>
    intro hf s hs
    have hd := hf fd (by simp)
    replace ih := @ih (fun d hd => hf d (by simp [hd]))
    unfold hostLeaves
    rw [isSet_nat hk hd]
    by_cases hc : some (meaning k fd) = some true ∧ ready fd = true
    · rw [if_pos hc]
      obtain ⟨r', e1, e2, e3⟩ := set_nat hs hd
      rw [e1]
      obtain ⟨i1, i2⟩ := ih (s := r') e2
      refine ⟨i1, fun d => ?_⟩
      rw [show (some r').getD s = r' from rfl, i2, e3]
      have hk1 : meaning k fd = true := by injection hc.1
      by_cases e : d = fd
      · subst e; simp [hk1, hc.2]
      · have : (d == fd) = false := by simpa using e
        simp [e, this]
    · rw [if_neg hc]
      obtain ⟨i1, i2⟩ := ih (s := s) hs
      refine ⟨i1, fun d => ?_⟩
      rw [i2]
      by_cases e : d = fd
      · subst e
        have : (meaning k d && ready d) = false := by
          cases h1 : meaning k d <;> cases h2 : ready d <;> simp_all
        rw [Bool.and_assoc, Bool.and_assoc, this]; simp
      · simp [e]

theorem translate_meaning {k : Raw} (hk : k.length = 16) {raws : List (Int × Nat)} (hr : ∀ t ∈ raws, t.2 < 1024) :
    ∀ (fds : List Nat), (∀ d ∈ fds, d < 1024) → ∀ {s : Raw}, s.length = 16 →
    ∃ s', translate k raws fds s = some s' ∧ s'.length = 16 ∧
      ∀ e, meaning s' e = (meaning s e || decide (∃ fd ∈ fds, meaning k fd = true ∧ (raws.find? (fun t => t.1 == (fd : Int))).map (·.2) = some e)) := by
  intro fds
  induction fds with
  | nil => intro _ s hs; exact ⟨s, rfl, hs, fun e => by simp⟩
  | cons fd fds ih =>
    intro hf s hs
    have hd := hf fd (by simp)
    replace ih := @ih (fun d hd => hf d (by simp [hd]))
    have cons_iff : ∀ e, (∃ fd' ∈ fd :: fds, meaning k fd' = true ∧ (raws.find? (fun t => t.1 == (fd' : Int))).map (·.2) = some e) ↔
        (meaning k fd = true ∧ (raws.find? (fun t => t.1 == (fd : Int))).map (·.2) = some e) ∨
        ∃ fd' ∈ fds, meaning k fd' = true ∧ (raws.find? (fun t => t.1 == (fd' : Int))).map (·.2) = some e := by
      intro e; simp
    unfold translate
    rw [isSet_nat hk hd]
    cases hm : meaning k fd with
    | false =>
      obtain ⟨s', a1, a2, a3⟩ := ih hs
      refine ⟨s', a1, a2, fun e => ?_⟩
      rw [a3]
      congr 1
      rw [decide_eq_decide, cons_iff, hm]
      simp
    | true =>
      dsimp only
      cases hf' : raws.find? (fun t => t.1 == (fd : Int)) with
      | none =>
        obtain ⟨s', a1, a2, a3⟩ := ih hs
        refine ⟨s', a1, a2, fun e => ?_⟩
        rw [a3]
        congr 1
        rw [decide_eq_decide, cons_iff, hm, hf']
        simp
      | some t =>
        obtain ⟨r', e1, e2, e3⟩ := set_nat hs (hr t (find_mem hf').1)
        dsimp only
        rw [e1]
        obtain ⟨s', a1, a2, a3⟩ := ih e2
        refine ⟨s', a1, a2, fun e => ?_⟩
        rw [a3, e3, Bool.or_assoc]
        congr 1
        rw [Bool.eq_iff_iff]
        simp only [Bool.or_eq_true, decide_eq_true_eq, beq_iff_eq, cons_iff, hm, hf', Option.map_some, Option.some.injEq, true_and]
        constructor
        · rintro (h | h)
          · exact .inl h.symm
          · exact .inr h
        · rintro (h | h)
          · exact .inl h.symm
          · exact .inr h

theorem hostPart_rel {h : Host} {c : FdBits.Acc} {a : Select.Acc} (r : Rel c a) : Same Rel (FdBits.hostPart h c) (Select.hostPart h a) := by
  have hempty : isEmpty c.kernel = true ↔ a.raws = [] := by
    rw [isEmpty_iff r.klen]
    constructor
    · intro hz
      cases hr : a.raws with
      | nil => rfl
      | cons t ts =>
        have ht : t ∈ a.raws := by rw [hr]; simp
        obtain ⟨h0, h1, -⟩ := r.range t ht
        have := hz t.1.toNat
        rw [r.kernel] at this
        simp only [decide_eq_false_iff_not] at this
        exact absurd ⟨t, ht, by omega⟩ this
    · intro hr d
      rw [r.kernel, hr]; simp
  unfold FdBits.hostPart Select.hostPart
  by_cases h0 : a.raws = []
  · rw [if_pos (hempty.2 h0), if_pos h0]; exact r
  rw [if_neg (fun x => h0 (hempty.1 x)), if_neg h0]
  cases hfail : h.fail with
  | true =>
    simp only [if_true, r.ret]
    split
    · rfl
    · exact r
  | false =>
    simp only [Bool.false_eq_true, if_false]
    have hn : ∀ d ∈ List.range (c.high + 1).toNat, d < 1024 := by
      intro d hd; rw [List.mem_range] at hd; have := r.high; omega
    have hcount : hostCount h.ready c.kernel (c.high + 1).toNat = ((firsts a.raws).filter (fun t => h.ready t.1)).length := by
      have e1 : hostCount h.ready c.kernel (c.high + 1).toNat =
          (List.range (c.high + 1).toNat).countP (fun (fd : Nat) => decide ((fd : Int) ∈ (firsts a.raws).map (·.1)) && h.ready fd) := by
        unfold hostCount
        apply List.countP_congr
        intro d hd
        rw [isSet_nat r.klen (hn d hd), r.kernel]
        have : (∃ t ∈ a.raws, t.1 = (d : Int)) ↔ (d : Int) ∈ (firsts a.raws).map (·.1) := by
          rw [List.mem_map]
          constructor
          · intro hx
            obtain ⟨e, he⟩ := find_some hx
            exact ⟨_, (firsts_find _ _ _).2 he, rfl⟩
          · rintro ⟨t, t1, t2⟩
            exact ⟨t, firsts_sub t1, t2⟩
        simp only [Bool.and_eq_true, beq_iff_eq, Option.some.injEq, decide_eq_true_eq, this]
      rw [e1, count_keys _ _ _ (firsts_nodup a.raws), List.filter_map, List.length_map]
      · rfl
      · intro k hk
        obtain ⟨t, t1, rfl⟩ := List.mem_map.1 hk
        have := r.range t (firsts_sub t1)
        omega
    have hset : ∀ e, (∃ fd ∈ List.range (c.high + 1).toNat, meaning (hostLeaves h.ready c.kernel (List.range (c.high + 1).toNat) zero) fd = true ∧
          (a.raws.find? (fun t => t.1 == (fd : Int))).map (·.2) = some e) ↔
        e ∈ ((firsts a.raws).filter (fun t => h.ready t.1)).map (·.2) := by
      intro e
      have lm := (leaves_meaning h.ready r.klen (List.range (c.high + 1).toNat) hn zero_len).2
      constructor
      · rintro ⟨fd, f1, f2, f3⟩
        rw [lm, meaning_zero] at f2
        simp only [emptySet, Bool.false_or, Bool.and_eq_true, decide_eq_true_eq] at f2
        obtain ⟨t, t1, t2⟩ := Option.map_eq_some_iff.1 f3
        have tk := (find_mem t1).2
        rw [List.mem_map]
        refine ⟨t, List.mem_filter.2 ⟨?_, by rw [tk]; exact f2.2⟩, t2⟩
        have : t = ((fd : Int), t.2) := by rw [← tk]
        rw [this]
        exact (firsts_find _ _ _).2 (by rw [t1]; exact congrArg some this)
      · intro he
        obtain ⟨t, t1, t2⟩ := List.mem_map.1 he
        obtain ⟨t3, t4⟩ := List.mem_filter.1 t1
        have hmem := firsts_sub t3
        obtain ⟨g0, g1, g2, g3⟩ := r.range t hmem
        have hk : ((t.1.toNat : Nat) : Int) = t.1 := by omega
        have hin : t.1.toNat ∈ List.range (c.high + 1).toNat := by rw [List.mem_range]; omega
        refine ⟨t.1.toNat, hin, ?_, ?_⟩
        · rw [lm, r.kernel, hk]
          simp only [Bool.or_eq_true, Bool.and_eq_true, decide_eq_true_eq]
          exact .inr ⟨⟨hin, t, hmem, rfl⟩, t4⟩
        · rw [hk, (firsts_find t.1 t.2 a.raws).1 t3]
          exact congrArg some t2
    rw [hcount]
    obtain ⟨s', s1, s2, s3⟩ := translate_meaning (leaves_meaning h.ready r.klen _ hn zero_len).1 (raws := a.raws)
      (fun t ht => (r.range t ht).2.2.2) _ hn r.len
    by_cases hp : ((firsts a.raws).filter (fun t => h.ready t.1)).length > 0
    · rw [if_pos hp, r.raws, s1]
      refine ⟨s2, r.klen, ?_, by simp [r.ret], rfl, r.kernel, r.range, r.high⟩
      funext e
      dsimp only
      rw [s3, r.set]
      congr 1
      rw [decide_eq_decide]
      exact hset e
    · rw [if_neg hp]
      have hnil : (firsts a.raws).filter (fun t => h.ready t.1) = [] := List.eq_nil_of_length_eq_zero (by omega)
      refine ⟨r.len, r.klen, ?_, by simp [r.ret, hnil], r.raws, r.kernel, r.range, r.high⟩
      funext e
      rw [r.set, hnil]; simp

end Verif.FdBits
