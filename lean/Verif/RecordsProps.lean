import Verif.Records

/-! # A file of records shared by several processes (property C113) -/

namespace Verif.Records
open Verif.Fs Verif.Kernel Verif.Path
open Verif.Follow (slot_kept ideal_bytes)

/-! ## Lemmas -/

theorem after_append (t : Nat → List UInt8) (a b : List Event) : after t (a ++ b) = after (after t a) b := by
  induction a generalizing t with
  | nil => rfl
  | cons e a ih => cases e <;> simp only [List.cons_append, after, ih]

theorem Legal.snoc_wrote {t : Nat → List UInt8} {es : List Event} (h : Legal t es) (c k : Nat) (d : List UInt8) : Legal t (es ++ [.wrote c k d]) := by
  intro pre post c' k' d' e
  rcases List.eq_nil_or_concat post with rfl | ⟨post', x, rfl⟩
  · have := List.append_inj' e rfl
    simp at this
  · rw [List.concat_eq_append] at e
    rw [show pre ++ Event.saw c' k' d' :: (post' ++ [x]) = (pre ++ Event.saw c' k' d' :: post') ++ [x] by simp] at e
    exact h _ _ _ _ _ (List.append_inj' e rfl).1

theorem Legal.snoc_saw {t : Nat → List UInt8} {es : List Event} (h : Legal t es) (c k : Nat) {d : List UInt8} (hd : d = after t es k) :
    Legal t (es ++ [.saw c k d]) := by
  intro pre post c' k' d' e
  rcases List.eq_nil_or_concat post with rfl | ⟨post', x, rfl⟩
  · have := List.append_inj' e rfl
    simp only [List.cons.injEq, Event.saw.injEq, and_true] at this
    obtain ⟨rfl, rfl, rfl, rfl⟩ := this
    exact hd
  · rw [List.concat_eq_append] at e
    rw [show pre ++ Event.saw c' k' d' :: (post' ++ [x]) = (pre ++ Event.saw c' k' d' :: post') ++ [x] by simp] at e
    exact h _ _ _ _ _ (List.append_inj' e rfl).1

/-- One record is written: it is there, and the others are as they were. -/
theorem written_record {old new d : List UInt8} {R K j k : Nat} (h : Written old (R * j) d new) (hd : d.length = R) (hl : R * K ≤ old.length)
    (hj : j < K) (hk : k < K) : (new.drop (R * k)).take R = if k = j then d else (old.drop (R * k)).take R := by
  obtain ⟨h1, h2, -, -⟩ := h
  have hk1 : R * (k + 1) ≤ R * K := Nat.mul_le_mul_left _ hk
  rw [Nat.mul_add, Nat.mul_one] at hk1
  apply List.ext_getElem?
  intro m
  by_cases hm : m < R
  · by_cases e : k = j
    · subst e
      rw [if_pos rfl, List.getElem?_take_of_lt hm, List.getElem?_drop, h1 m (by omega)]
    · rw [if_neg e, List.getElem?_take_of_lt hm, List.getElem?_take_of_lt hm, List.getElem?_drop, List.getElem?_drop]
      refine h2 _ ?_ (by omega)
      rcases Nat.lt_or_gt_of_ne e with hlt | hgt
      · have := Nat.mul_le_mul_left R (show k + 1 ≤ j from hlt)
        rw [Nat.mul_add, Nat.mul_one] at this
        omega
      · have := Nat.mul_le_mul_left R (show j + 1 ≤ k from hgt)
        rw [Nat.mul_add, Nat.mul_one] at this
        omega
  · have hx : ∀ l : List UInt8, ((l.drop (R * k)).take R)[m]? = none := fun l =>
      List.getElem?_eq_none (by rw [List.length_take]; omega)
    rw [hx]
    split
    · rw [List.getElem?_eq_none (by omega)]
    · rw [hx]

/-- What holds all the time; `t` are the records at the start, `D` the content at the start. -/
structure Ok (P : Plan) (t : Nat → List UInt8) (D : List UInt8) (x : Conf) : Prop where
  reach : Reach x.s
  any : P.users ≠ []
  small : P.size < 2147483648
  file : IsFile x.s P.i D.length
  len : (bytes x.s P.i).length = D.length
  long : P.size * P.count ≤ D.length
  open_ : ∀ c ∈ P.users, ∃ pos f, OpenOn x.s c (P.fd c) P.i pos f ∧ f &&& 3#32 = 2#32
  legal : Legal t x.events
  now : ∀ k, k < P.count → record P x.s k = after t x.events k
  rest : (bytes x.s P.i).drop (P.size * P.count) = D.drop (P.size * P.count)

theorem Start.ok {P : Plan} {x : Conf} (h : Start P x) : Ok P (record P x.s) (bytes x.s P.i) x := by
  obtain ⟨n, hf⟩ := h.file
  have hl := (h.reach.inv.content hf).2
  refine ⟨h.reach, h.any, h.small, by rw [hl]; exact hf, rfl, h.long, h.rw, ?_, ?_, rfl⟩
  · rw [h.events]; intro pre post c k d e; simp at e
  · rw [h.events]; intro k _; rfl

theorem tame_pwrite (s : State) (c : Nat) (fd off : Int) (d : List UInt8) : Tame s c (.pwrite fd d off) := by
  unfold Tame; split <;> trivial

theorem place {P : Plan} {k : Nat} (hk : k < P.count) : P.size * k + P.size ≤ P.size * P.count := by
  have := Nat.mul_le_mul_left P.size (show k + 1 ≤ P.count from hk)
  rwa [Nat.mul_add, Nat.mul_one] at this

theorem Ok.got {P : Plan} {t : Nat → List UInt8} {D : List UInt8} {x : Conf} (h : Ok P t D x) {c k : Nat} (hc : c ∈ P.users) (hk : k < P.count) :
    (step x.s c (.pread (P.fd c) P.size (P.size * k : Nat))).1 = x.s ∧
    (step x.s c (.pread (P.fd c) P.size (P.size * k : Nat))).2.data = record P x.s k ∧
    (step x.s c (.pread (P.fd c) P.size (P.size * k : Nat))).2.ret = .ok P.size := by
  obtain ⟨pos, f, o, m⟩ := h.open_ c hc
  have hp := place hk
  have hlong := h.long
  have hsm := h.small
  obtain ⟨r1, r2, r3⟩ := pread_returns_partial h.reach (n := P.size) (off := P.size * k) o h.file (by rw [m]; decide) (by omega)
  have hmin : min P.size (D.length - P.size * k) = P.size := by omega
  rw [hmin] at r2
  exact ⟨r3, r1, r2 hsm⟩

theorem Ok.get {P : Plan} {t : Nat → List UInt8} {D : List UInt8} {x : Conf} (h : Ok P t D x) {c k : Nat} (hf : Fair P x (.get c k)) :
    Ok P t D (next P x (.get c k)) := by
  obtain ⟨e1, e2, -⟩ := h.got hf.1 hf.2
  simp only [next, e1, e2]
  refine ⟨h.reach, h.any, h.small, h.file, h.len, h.long, h.open_, h.legal.snoc_saw _ _ (h.now k hf.2), ?_, h.rest⟩
  intro j hj
  dsimp only
  rw [after_append]
  exact h.now j hj

theorem Ok.put {P : Plan} {t : Nat → List UInt8} {D : List UInt8} {x : Conf} (h : Ok P t D x) {c k : Nat} {d : List UInt8} (hf : Fair P x (.put c k d)) :
    Ok P t D (next P x (.put c k d)) ∧ (step x.s c (.pwrite (P.fd c) d (P.size * k : Nat))).2.ret = .ok P.size := by
  obtain ⟨hc, hk, hd⟩ := hf
  obtain ⟨pos, f, o, m⟩ := h.open_ c hc
  have hp := place hk
  have hlong := h.long
  obtain ⟨w1, w2, w3, w4⟩ := pwrite_writes h.reach (off := P.size * k) (data := d) o h.file (by rw [m]; decide)
  have hmax : max D.length (P.size * k + d.length) = D.length := by omega
  rw [hmax] at w2
  have hret : (step x.s c (.pwrite (P.fd c) d (P.size * k : Nat))).2.ret = .ok P.size := by
    rw [w4, hd, toI32_small (by omega) (by have := h.small; omega)]
  refine ⟨?_, hret⟩
  have hlen : (bytes (step x.s c (.pwrite (P.fd c) d (P.size * k : Nat))).1 P.i).length = D.length := by
    rw [w1.2.2.2, h.len, hmax]
  refine ⟨.step c _ h.reach (tame_pwrite _ _ _ _ _) (by rw [hret]; simp), h.any, h.small, ?_, hlen, h.long, ?_, h.legal.snoc_wrote _ _ _, ?_, ?_⟩
  · obtain ⟨nd, a, b⟩ := h.file
    exact ⟨_, w2.2 nd a, b.1, rfl⟩
  · intro u hu
    obtain ⟨p', f', o', m'⟩ := h.open_ u hu
    refine ⟨p', f', ?_, m'⟩
    unfold OpenOn at o' ⊢
    simp only [next]
    rw [w3]; exact o'
  · intro j hj
    have := written_record (R := P.size) (K := P.count) w1 hd (by rw [h.len]; exact hlong) hk hj
    simp only [next, record, after_append, after]
    rw [this]
    split
    · rfl
    · exact h.now j hj
  · rw [← h.rest]
    apply List.ext_getElem?
    intro q
    simp only [next, List.getElem?_drop]
    by_cases hq : P.size * P.count + q < D.length
    · exact w1.2.1 _ (by omega) (by rw [h.len]; exact hq)
    · rw [List.getElem?_eq_none (by omega), List.getElem?_eq_none (by rw [h.len]; omega)]

theorem Ok.other {P : Plan} {t : Nat → List UInt8} {D : List UInt8} {x : Conf} (h : Ok P t D x) {c : Nat} {op : Op} (hf : Fair P x (.other c op)) :
    Ok P t D (next P x (.other c op)) := by
  obtain ⟨ht, hnp, he, hs⟩ := hf
  have hR : Reach (step x.s c op).1 := .step c _ h.reach ht hnp
  have hk : ∀ u ∈ P.users, ∃ pos f, OpenOn (step x.s c op).1 u (P.fd u) P.i pos f ∧ f &&& 3#32 = 2#32 := by
    intro u hu
    obtain ⟨pos, f, o, m⟩ := h.open_ u hu
    by_cases e : u = c
    · subst e
      obtain ⟨pos', hp⟩ := hs hu pos f o.slot
      exact ⟨pos', f, Pipeline.openOn_of_slot o.1 hp, m⟩
    · exact ⟨pos, f, Pipeline.openOn_of_slot o.1 (slot_kept o.slot e ht), m⟩
  obtain ⟨u, hu⟩ : ∃ u, u ∈ P.users := List.exists_mem_of_ne_nil _ h.any
  obtain ⟨pos, f, o, -⟩ := hk u hu
  obtain ⟨nd, hx⟩ := StatBuf.open_exists hR o
  have hb := ideal_bytes ((content_step h.reach (i := P.i) ⟨_, h.file⟩ (by unfold Kernel.Exists; rw [hx]; simp)).2.1 he)
  refine ⟨hR, h.any, h.small, Pipeline.file_kept h.reach hR h.file o hb, ?_, h.long, hk, h.legal, ?_, ?_⟩
  · simp only [next, hb]; exact h.len
  · intro k hk'
    simp only [next, record, hb]
    exact h.now k hk'
  · simp only [next, hb]; exact h.rest

theorem Runs.ok {P : Plan} {t : Nat → List UInt8} {D : List UInt8} {x y : Conf} {ms : List Move} (hr : Runs P x ms y) (h : Ok P t D x) : Ok P t D y := by
  induction hr with
  | nil => exact h
  | cons hf _ ih =>
    rename_i m _ _
    refine ih ?_
    cases m with
    | put => exact (h.put hf).1
    | get => exact h.get hf
    | other => exact h.other hf

/-! ## Theorems -/

/-- C113.  **Everybody sees the record written last**, by whomever, or the one that was there at the start, and never a mixture; and the file holds exactly
the records written last.  Partial: each call is one step. -/
theorem records_exact_partial {P : Plan} {x y : Conf} {ms : List Move} (h : Start P x) (hr : Runs P x ms y) :
    Legal (record P x.s) y.events ∧ (∀ k, k < P.count → record P y.s k = after (record P x.s) y.events k) ∧
      (bytes y.s P.i).length = (bytes x.s P.i).length := by
  have ok := hr.ok h.ok
  exact ⟨ok.legal, ok.now, ok.len⟩

/-- C113.  Every `pwrite` and every `pread` of a record is of the whole record, and says so; reading changes nothing at all. -/
theorem records_whole_partial {P : Plan} {x y : Conf} {ms : List Move} (h : Start P x) (hr : Runs P x ms y) {c k : Nat} (hc : c ∈ P.users)
    (hk : k < P.count) :
    (step y.s c (.pread (P.fd c) P.size (P.size * k : Nat))).1 = y.s ∧
    (step y.s c (.pread (P.fd c) P.size (P.size * k : Nat))).2.data = after (record P x.s) y.events k ∧
    (step y.s c (.pread (P.fd c) P.size (P.size * k : Nat))).2.ret = .ok P.size ∧
    ∀ d : List UInt8, d.length = P.size → (step y.s c (.pwrite (P.fd c) d (P.size * k : Nat))).2.ret = .ok P.size := by
  have ok := hr.ok h.ok
  rw [← ok.now k hk]
  obtain ⟨a, b, e⟩ := ok.got hc hk
  exact ⟨a, b, e, fun d hd => (ok.put ⟨hc, hk, hd⟩).2⟩

/-- C113.  Bytes of the file that belong to no record are never touched. -/
theorem records_outside_partial {P : Plan} {x y : Conf} {ms : List Move} (h : Start P x) (hr : Runs P x ms y) :
    (bytes y.s P.i).drop (P.size * P.count) = (bytes x.s P.i).drop (P.size * P.count) := (hr.ok h.ok).rest

end Verif.Records
