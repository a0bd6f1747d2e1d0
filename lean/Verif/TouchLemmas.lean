import Verif.TouchSpec
import Verif.DispatchProps

/-!
# Lemmas on memory accesses
-/

namespace Verif.Touch
open Verif.Dispatch

/-- Every access is inside some region. -/
def Fine (R : List Region) (xs : List Acc) : Prop := ∀ x ∈ xs, ∃ r ∈ R, Inside x r

theorem fine_nil (R : List Region) : Fine R [] := by intro x h; cases h

theorem fine_append {R : List Region} {xs ys : List Acc} (h : Fine R xs) (k : Fine R ys) :
    Fine R (xs ++ ys) := by
  intro x hx
  rcases List.mem_append.1 hx with hx | hx
  · exact h x hx
  · exact k x hx

theorem fine_one {R : List Region} {x : Acc} {r : Region} (hr : r ∈ R) (h : Inside x r) :
    Fine R [x] := by
  intro y hy
  rw [List.mem_singleton] at hy
  exact ⟨r, hr, hy ▸ h⟩

theorem fine_ite {R : List Region} {p : Prop} [Decidable p] {xs ys : List Acc}
    (h : p → Fine R xs) (k : ¬ p → Fine R ys) : Fine R (if p then xs else ys) := by
  split
  · exact h ‹_›
  · exact k ‹_›

/-- The values of well-formed arguments, from position `i` on. -/
def vals (args : List (BitVec 64)) : Nat → List Kind → List Val
  | _, [] => []
  | i, k :: ks => value (args.getD i 0#64) k :: vals args (i + 1) ks

/-- The arguments from position `i` on are well-formed. -/
def Wf (utf8 : BitVec 64 → Bool) (args : List (BitVec 64)) : Nat → List Kind → Prop
  | _, [] => True
  | i, k :: ks => WellFormed utf8 (args.getD i 0#64) k ∧ Wf utf8 args (i + 1) ks

theorem headD_drop (args : List (BitVec 64)) (i : Nat) :
    (args.drop i).headD 0#64 = args.getD i 0#64 := by
  simp [List.headD_eq_head?_getD, List.head?_drop, List.getD_eq_getElem?_getD]

theorem checkArgs_drop (utf8 : BitVec 64 → Bool) (args : List (BitVec 64)) (ks : List Kind) :
    ∀ i, (Wf utf8 args i ks ∧ checkArgs utf8 ks (args.drop i) = .ok (vals args i ks)) ∨
      (¬ Wf utf8 args i ks ∧ ∃ e, checkArgs utf8 ks (args.drop i) = .error e) := by
  induction ks with
  | nil => intro i; exact .inl ⟨trivial, rfl⟩
  | cons k ks ih =>
    intro i
    simp only [checkArgs, headD_drop, List.tail_drop, Wf, vals]
    by_cases h : WellFormed utf8 (args.getD i 0#64) k
    · rw [(getArg_spec utf8 k _).1 h]
      rcases ih (i + 1) with ⟨hw, he⟩ | ⟨hw, e, he⟩
      · rw [he]; exact .inl ⟨⟨h, hw⟩, rfl⟩
      · rw [he]; exact .inr ⟨fun q => hw q.2, e, rfl⟩
    · rw [(getArg_spec utf8 k _).2 h]
      exact .inr ⟨fun q => h q.1, _, rfl⟩

theorem checkArgs_cases (utf8 : BitVec 64 → Bool) (args : List (BitVec 64)) (ks : List Kind) :
    (Wf utf8 args 0 ks ∧ checkArgs utf8 ks args = .ok (vals args 0 ks)) ∨
      (¬ Wf utf8 args 0 ks ∧ ∃ e, checkArgs utf8 ks args = .error e) :=
  checkArgs_drop utf8 args ks 0

/-- The string arguments, from position `i` on. -/
def strs (args : List (BitVec 64)) : Nat → List Kind → List Region
  | _, [] => []
  | i, k :: ks =>
    (if k = .cstr then [.str (args.getD i 0#64).toNat] else []) ++ strs args (i + 1) ks

theorem argAccs_drop (w : World) (args : List (BitVec 64)) (ks : List Kind) :
    ∀ i, ∀ x ∈ argAccs w ks (args.drop i), ∃ a : BitVec 64, a ≠ 0#64 ∧ x = .str a.toNat ∧
      Region.str a.toNat ∈ strs args i ks := by
  induction ks with
  | nil => intro i x h; cases h
  | cons k ks ih =>
    intro i x hx
    simp only [argAccs, headD_drop, List.tail_drop, List.mem_append] at hx
    rcases hx with hx | hx
    · split at hx
      · rename_i h
        rw [List.mem_singleton] at hx
        refine ⟨_, h.2, hx, ?_⟩
        simp [strs, h.1]
      · cases hx
    · split at hx
      · cases hx
      · obtain ⟨a, h0, h1, h2⟩ := ih (i + 1) x hx
        exact ⟨a, h0, h1, List.mem_append_right _ h2⟩

theorem argAccs_mem {w : World} {args : List (BitVec 64)} {ks : List Kind} {x : Acc}
    (h : x ∈ argAccs w ks args) : ∃ a : BitVec 64, a ≠ 0#64 ∧ x = .str a.toNat ∧
      Region.str a.toNat ∈ strs args 0 ks := argAccs_drop w args ks 0 x h

theorem fine_plain {w : World} {R : List Region} {ks : List Kind} {args : List (BitVec 64)}
    {h : List Val → List Acc} (hs : ∀ r ∈ strs args 0 ks, r ∈ R)
    (hh : Wf w.utf8 args 0 ks → Fine R (h (vals args 0 ks))) : Fine R (plain w ks args h) := by
  refine fine_append ?_ ?_
  · intro x hx
    obtain ⟨a, _, rfl, h2⟩ := argAccs_mem hx
    exact ⟨_, hs _ h2, rfl⟩
  · rcases checkArgs_cases w.utf8 args ks with ⟨hw, he⟩ | ⟨_, e, he⟩
    · rw [he]; exact hh hw
    · rw [he]; exact fine_nil R

theorem within_min (a n k : Nat) : Within a (min k n) a n := by
  unfold Within
  exact .inr ⟨Nat.le_refl _, Nat.add_le_add_left (Nat.min_le_right _ _) _⟩

theorem within_le {a n k : Nat} (h : n ≤ k) : Within a n a k :=
  .inr ⟨Nat.le_refl _, Nat.add_le_add_left h _⟩

theorem num_eq_peek (m : Nat → Nat) (k : Nat) : ∀ a, num m a k = peek m a k := by
  induction k with
  | zero => intro a; rfl
  | succ k ih =>
    intro a
    simp only [num, ih, peek, List.range_succ_eq_map, List.map_cons, List.map_map, List.sum_cons,
      Nat.add_zero, Nat.pow_zero, Nat.mul_one]
    congr 1
    generalize List.range k = l
    induction l with
    | nil => rfl
    | cons i l il =>
      simp only [List.map_cons, List.sum_cons, Function.comp_apply, Nat.mul_add, il]
      rw [Nat.pow_succ, Nat.add_assoc, Nat.add_comm 1 i]
      congr 1
      rw [Nat.mul_comm (256 ^ i) 256, Nat.mul_left_comm]

theorem sint_eq (a : BitVec 64) : ((a.setWidth 32 : BitVec 32)).toInt = sint a := by
  unfold sint
  congr 1

/-! ## Buffers -/

theorem fine_recv {R : List Region} {w : World} {a n f : Nat} (h : Region.out a n ∈ R) :
    Fine R (recvCall w a n f) := by
  unfold recvCall
  refine fine_ite (fun _ => fine_nil R) (fun _ => ?_)
  unfold recvBuf
  refine fine_ite (fun _ => ?_) (fun _ => fine_one h (within_min a n _))
  have hb : (if w.peeked = 0 then 0 else min w.peeked n) ≤ n := by
    split
    · exact Nat.zero_le _
    · exact Nat.min_le_right _ _
  refine fine_append (fine_ite (fun _ => fine_nil R) (fun _ => fine_one h (within_le hb)))
    (fine_ite (fun _ => fine_nil R) (fun _ => fine_append (fine_one h ?_)
      (fine_ite (fun _ => fine_one h ?_) (fun _ => fine_nil R))))
  all_goals
    generalize (if w.peeked = 0 then 0 else min w.peeked n) = b at hb
    show Within _ _ _ _
    unfold Within
    refine .inr ⟨Nat.le_add_right _ _, ?_⟩
    omega

theorem fill_size (size : Nat) (es : List (Path.Str × Nat)) :
    ∀ b, b ≤ size → b + ((Getdents.fill size es b).1.map
      (fun r => Getdents.clipped + r.tail.length)).sum ≤ size := by
  induction es with
  | nil => intro b h; simpa [Getdents.fill] using h
  | cons e es ih =>
    intro b h
    obtain ⟨n, i⟩ := e
    unfold Getdents.fill
    split
    · simpa using h
    · rename_i hc
      have := ih (b + Getdents.recLen n) (by omega)
      simp only [List.map_cons, List.sum_cons, List.length_append, List.length_cons, List.length_nil,
        List.length_replicate]
      have hr : Getdents.clipped + (n.length + 2) ≤ Getdents.recLen n := by
        unfold Getdents.recLen; omega
      omega

theorem fine_pack {R : List Region} {a n : Nat} (h : Region.out a n ∈ R) (rs : List Getdents.Rec) :
    ∀ b, a ≤ b → b + (rs.map (fun r => Getdents.clipped + r.tail.length)).sum ≤ a + n →
      Fine R (packAccs b rs) := by
  induction rs with
  | nil => intro b _ _; exact fine_nil R
  | cons r rs ih =>
    intro b h1 h2
    simp only [List.map_cons, List.sum_cons] at h2
    have : packAccs b (r :: rs) = [.write b Getdents.clipped] ++
      ([.write (b + Getdents.clipped) r.tail.length] ++
        packAccs (b + Getdents.clipped + r.tail.length) rs) := rfl
    rw [this]
    refine fine_append (fine_one h (.inr ⟨h1, by omega⟩))
      (fine_append (fine_one h (.inr ⟨by omega, by omega⟩)) (ih _ (by omega) (by omega)))

theorem fine_getdents {R : List Region} {w : World} {a n : Nat} (h : Region.out a n ∈ R) :
    Fine R (packAccs a (Getdents.getdents w.ents w.pos n).recs) := by
  unfold Getdents.getdents
  split
  · exact fine_nil R
  · refine fine_pack h _ a (Nat.le_refl _) ?_
    have := fill_size n (w.ents.drop w.pos) 0 (Nat.zero_le _)
    dsimp only
    omega

theorem fine_epoll {R : List Region} {a max : Nat} (h : Region.out a (8 * max) ∈ R)
    (rs : List Bool) : ∀ count, count < max → Fine R (epollAccs a max count rs) := by
  induction rs with
  | nil => intro c _; exact fine_nil R
  | cons r rs ih =>
    intro c hc
    cases r with
    | false => exact ih c hc
    | true =>
      have : epollAccs a max c (true :: rs) = [.write (a + sizeEpoll * c) sizeEpoll] ++
        (if c + 1 ≥ max then [] else epollAccs a max (c + 1) rs) := rfl
      rw [this]
      refine fine_append (fine_one h ?_) (fine_ite (fun _ => fine_nil R) (fun q => ih _ (by omega)))
      show Within _ _ _ _
      unfold sizeEpoll Within
      exact .inr ⟨by omega, by omega⟩

theorem fine_iov {R : List Region} {w : World} {a k : Nat} (h : Region.inn a (16 * k) ∈ R)
    (hb : ∀ r ∈ iovecs w.mem a k, r ∈ R) {j : Nat} (hj : j ≤ k) :
    Fine R ((List.range j).flatMap (iovAcc w a)) := by
  intro x hx
  obtain ⟨i, hi, hx⟩ := List.mem_flatMap.1 hx
  have hi := List.mem_range.1 hi
  rcases List.mem_cons.1 hx with rfl | hx
  · refine ⟨_, h, ?_⟩
    show Within _ _ _ _
    unfold sizeIovec Within
    exact .inr ⟨by omega, by omega⟩
  · rw [List.mem_singleton] at hx
    subst hx
    refine ⟨.inn (peek w.mem (a + 16 * i) 8) (peek w.mem (a + 16 * i + 8) 8), hb _ ?_, ?_⟩
    · exact List.mem_map.2 ⟨i, List.mem_range.2 (by omega), rfl⟩
    · rw [num_eq_peek, num_eq_peek]
      exact within_le (Nat.le_refl _)

theorem usizeOf_nonneg {v : BitVec 32} (h : 0 ≤ v.toInt) : usizeOf v = v.toNat := by
  have hm : v.msb = false := by
    rw [BitVec.msb_eq_toInt]; simpa using h
  unfold usizeOf
  rw [BitVec.signExtend_eq_setWidth_of_msb_false hm]
  simp
  exact Nat.lt_trans v.isLt (by decide)

theorem toNat_of_nonneg {v : BitVec 32} (h : 0 ≤ v.toInt) : v.toInt.toNat = v.toNat := by
  have hm : v.msb = false := by
    rw [BitVec.msb_eq_toInt]; simpa using h
  rw [BitVec.toInt_eq_toNat_of_msb hm]
  rfl

theorem fine_writev {R : List Region} {w : World} {a : Nat} {v : BitVec 32} (h0 : 0 ≤ v.toInt)
    (h : Region.inn a (16 * v.toInt.toNat) ∈ R) (hb : ∀ r ∈ iovecs w.mem a v.toInt.toNat, r ∈ R) :
    Fine R (writevAccs w a v) := by
  rw [toNat_of_nonneg h0] at h hb
  unfold writevAccs
  refine fine_ite (fun _ => fine_nil R) (fun _ => ?_)
  split
  · exact fine_ite (fun _ => fine_nil R) (fun _ => fine_iov h hb (Nat.le_refl _))
  · refine fine_ite (fun _ => fine_nil R) (fun _ => fine_iov h hb ?_)
    rw [usizeOf_nonneg h0]; exact Nat.min_le_right _ _
  · rw [usizeOf_nonneg h0]; exact fine_iov h hb (Nat.le_refl _)
  · rw [usizeOf_nonneg h0]; exact fine_iov h hb (Nat.le_refl _)
  · exact fine_nil R

/-! ## Addresses -/

theorem u16At_peek (m : Nat → Nat) (a : Nat) :
    SockAddr.u16At (fun i => m (a + i)) 0 = peek m a 2 := by
  rw [← num_eq_peek]
  simp [SockAddr.u16At, num]

theorem fine_sockaddr {R : List Region} {w : World} {a : BitVec 64} {l : BitVec 64}
    (hf : FullAddr w.mem a l) (h : Region.inn a.toNat l.toNat ∈ R) :
    Fine R (sockaddrAccs w a l.toNat).1 := by
  unfold sockaddrAccs
  split
  · exact fine_nil R
  · have h2 : Fine R [.read a.toNat 2] := fine_one h (within_le hf.1)
    split
    · rename_i s hs
      have hsz : SockAddr.sizeOf s ≤ l.toNat := by
        unfold SockAddr.getSockaddr at hs
        simp only [u16At_peek] at hs
        split at hs
        · rename_i h1
          split at hs
          · cases hs
          · cases hs; exact hf.2 h1
        · split at hs
          · split at hs
            · cases hs
            · cases hs; rename_i q; exact Nat.le_of_not_lt q
          · split at hs
            · split at hs
              · cases hs
              · cases hs; rename_i q; exact Nat.le_of_not_lt q
            · cases hs
      exact fine_append h2 (fine_one h (within_le hsz))
    · exact h2

theorem fine_copyOut {R : List Region} {w : World} {a l : BitVec 64}
    (h1 : Region.out l.toNat 4 ∈ R) (h2 : Region.out a.toNat (peek w.mem l.toNat 4) ∈ R) :
    Fine R (copyOutAccs w a l) := by
  have : copyOutAccs w a l = [.read l.toNat 4] ++ ([.write a.toNat (min (num w.mem l.toNat 4)
    (SockAddr.sizeOf w.addr))] ++ [.write l.toNat 4]) := rfl
  rw [this, num_eq_peek]
  exact fine_append (fine_one h1 (within_le (Nat.le_refl _)))
    (fine_append (fine_one h2 (within_le (Nat.min_le_left _ _)))
      (fine_one h1 (within_le (Nat.le_refl _))))

end Verif.Touch
