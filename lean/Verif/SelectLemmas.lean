import Verif.Select

/-!
Lemmas about the loops of `Select`: what they compute, in closed form.
-/

set_option linter.unusedSimpArgs false

namespace Verif.Select

open Verif.Pipe (Pipe)

/-- Descriptors ready without asking the host. -/
def hitR : View → Bool
  | .file => true
  | .epoll => true
  | .pipe p => p.selectRead
  | .unix u =>
    if u.st = .listen then u.request == some true
    else if u.st = .connected ∨ (u.st = .inProgress ∧ u.asking = some false) then
      match u.inp with | none => false | some p => p.selectRead
    else false
  | _ => false

/-- Descriptors at which the loop stops. -/
def stopR : View → Option Ret
  | .unix u =>
    if u.st = .inProgress ∧ u.asking = none then some .panic
    else if u.st = .listen then (if u.request = none then some .panic else none)
    else if (u.st = .connected ∨ (u.st = .inProgress ∧ u.asking = some false)) ∧ u.inp = none then some .panic
    else none
  | .inet raw _ => if raw ≥ fdSetMax then some .panic else none
  | .other => some (.err .EINVAL)
  | _ => none

/-- The host descriptor to ask about. -/
def rawOf : View → Option Int
  | .inet raw _ => if raw < 0 then none else some raw
  | _ => none

theorem readOne_eq (fd : Nat) (v : View) (a : Acc) :
    readOne fd v a = match stopR v with
      | some r => .error r
      | none => .ok { set := fun d => a.set d || (hitR v && d == fd), ret := a.ret + (hitR v).toNat
                      raws := a.raws ++ ((rawOf v).map (·, fd)).toList } := by
  cases v with
  | file => simp [readOne, stopR, hitR, rawOf, Acc.hit]
  | epoll => simp [readOne, stopR, hitR, rawOf, Acc.hit]
  | stream => simp [readOne, stopR, hitR, rawOf, Acc.hit]
  | pipe p =>
    simp only [readOne, stopR, hitR, rawOf, Acc.hit]
    cases p.selectRead <;> simp
  | other => simp [readOne, stopR, hitR, rawOf, Acc.hit]
  | inet raw est =>
    simp only [readOne, stopR, hitR, rawOf]
    have : fdSetMax = 1024 := rfl
    by_cases h1 : raw < 0
    · have h2 : ¬ raw ≥ fdSetMax := by omega
      simp [h1, h2]
    · by_cases h2 : raw ≥ fdSetMax <;> simp [h1, h2]
  | unix u =>
    obtain ⟨st, rq, ask, inp⟩ := u
    simp only [readOne, stopR, hitR, rawOf, Acc.hit]
    cases st <;> cases rq <;> cases ask <;> cases inp <;> simp
    all_goals (try (rename_i b _; cases b <;> simp))
    all_goals (try (rename_i b; cases b <;> simp))
    all_goals (try split <;> simp_all)

/-- The descriptors the read loop counts. -/
def hits (req : FdSet) (obs : Nat → Option View) (d : Nat) : Bool :=
  req d && (match obs d with | none => false | some v => hitR v)

/-- The host descriptors the read loop collects. -/
def rawAt (req : FdSet) (obs : Nat → Option View) (d : Nat) : Option (Int × Nat) :=
  if req d then ((obs d).bind rawOf).map (·, d) else none

theorem readLoop_ok {req : FdSet} {obs : Nat → Option View} {l : List Nat} {a a' : Acc} (h : readLoop req obs l a = .ok a') :
    (∀ d ∈ l, req d = true → ∃ v, obs d = some v ∧ stopR v = none) ∧
    a'.ret = a.ret + (l.filter (hits req obs)).length ∧
    (∀ d, a'.set d = (a.set d || (decide (d ∈ l) && hits req obs d))) ∧
    a'.raws = a.raws ++ l.filterMap (rawAt req obs) := by
  induction l generalizing a with
  | nil => cases h; simp
  | cons fd l ih =>
    simp only [readLoop] at h
    by_cases hr : req fd = false
    · simp only [hr, if_true] at h
      obtain ⟨i1, i2, i3, i4⟩ := ih h
      have hh : hits req obs fd = false := by simp [hits, hr]
      have hw : rawAt req obs fd = none := by simp [rawAt, hr]
      refine ⟨?_, ?_, ?_, ?_⟩
      · intro d hd hq
        rcases List.mem_cons.1 hd with rfl | hd
        · rw [hr] at hq; cases hq
        · exact i1 d hd hq
      · rw [i2]; simp [hh]
      · intro d
        rw [i3]
        by_cases hd : d = fd
        · subst hd; simp [hh]
        · simp [hd]
      · rw [i4, List.filterMap_cons, hw]
    · have hr : req fd = true := by simpa using hr
      simp only [hr, Bool.true_eq_false, if_false] at h
      cases ho : obs fd with
      | none => rw [ho] at h; cases h
      | some v =>
        rw [ho] at h
        dsimp only at h
        rw [readOne_eq] at h
        cases hs : stopR v with
        | some r => rw [hs] at h; cases h
        | none =>
          rw [hs] at h
          dsimp only at h
          obtain ⟨i1, i2, i3, i4⟩ := ih h
          have hh : hits req obs fd = hitR v := by simp [hits, hr, ho]
          have hw : rawAt req obs fd = (rawOf v).map (·, fd) := by simp [rawAt, hr, ho]
          refine ⟨?_, ?_, ?_, ?_⟩
          · intro d hd hq
            rcases List.mem_cons.1 hd with rfl | hd
            · exact ⟨v, ho, hs⟩
            · exact i1 d hd hq
          · rw [i2, List.filter_cons, hh]
            cases hitR v <;> simp <;> omega
          · intro d
            rw [i3]
            by_cases hd : d = fd
            · subst hd; simp [hh]; exact fun _ h => .inr h
            · have : (d == fd) = false := by simpa using hd
              simp [hd, this]
          · rw [i4, List.filterMap_cons, hw]
            cases rawOf v <;> simp

theorem readLoop_err {req : FdSet} {obs : Nat → Option View} {l : List Nat} {a : Acc} {r : Ret}
    (h : readLoop req obs l a = .error r) :
    ∃ d ∈ l, req d = true ∧ ((obs d = none ∧ r = .err .EBADF) ∨ ∃ v, obs d = some v ∧ stopR v = some r) := by
  induction l generalizing a with
  | nil => cases h
  | cons fd l ih =>
    simp only [readLoop] at h
    by_cases hr : req fd = false
    · simp only [hr, if_true] at h
      obtain ⟨d, hd, k⟩ := ih h
      exact ⟨d, List.mem_cons_of_mem _ hd, k⟩
    · have hr : req fd = true := by simpa using hr
      simp only [hr, Bool.true_eq_false, if_false] at h
      cases ho : obs fd with
      | none =>
        rw [ho] at h; cases h
        exact ⟨fd, List.mem_cons_self, hr, .inl ⟨ho, rfl⟩⟩
      | some v =>
        rw [ho] at h
        dsimp only at h
        rw [readOne_eq] at h
        cases hs : stopR v with
        | some r' =>
          rw [hs] at h; cases h
          exact ⟨fd, List.mem_cons_self, hr, .inr ⟨v, ho, hs⟩⟩
        | none =>
          rw [hs] at h
          obtain ⟨d, hd, k⟩ := ih h
          exact ⟨d, List.mem_cons_of_mem _ hd, k⟩

theorem stopR_not_ebadf {v : View} : stopR v ≠ some (.err .EBADF) := by
  cases v with
  | unix u => simp only [stopR]; repeat' split
              all_goals simp
  | inet raw est => simp only [stopR]; split <;> simp
  | _ => simp [stopR]

/-! ## The host -/

theorem firsts_sub {ts : List (Int × Nat)} : ∀ t ∈ firsts ts, t ∈ ts := by
  induction ts with
  | nil => simp [firsts]
  | cons x ts ih =>
    intro t h
    simp only [firsts, List.mem_cons, List.mem_filter] at h
    rcases h with rfl | ⟨h, -⟩
    · simp
    · exact List.mem_cons_of_mem _ (ih t h)

theorem firsts_sublist (ts : List (Int × Nat)) : (firsts ts).Sublist ts := by
  induction ts with
  | nil => exact .slnil
  | cons x ts ih => exact ((List.filter_sublist).trans ih).cons_cons x

theorem firsts_cover {ts : List (Int × Nat)} {t : Int × Nat} (h : t ∈ ts) : ∃ u ∈ firsts ts, u.1 = t.1 := by
  induction ts with
  | nil => cases h
  | cons x ts ih =>
    by_cases hx : x.1 = t.1
    · exact ⟨x, by simp [firsts], hx⟩
    · rcases List.mem_cons.1 h with rfl | h
      · exact absurd rfl hx
      · obtain ⟨u, hu, e⟩ := ih h
        refine ⟨u, ?_, e⟩
        simp only [firsts, List.mem_cons, List.mem_filter, hu, true_and]
        right
        simpa using fun e' => hx (e'.symm.trans e)

/-- A list of distinct numbers below `n`, counted. -/
theorem count_list {n : Nat} {l : List Nat} (hd : l.Nodup) (hb : ∀ d ∈ l, d < n) :
    ((List.range n).filter (fun d => decide (d ∈ l))).length = l.length := by
  refine List.Perm.length_eq ((List.perm_ext_iff_of_nodup ?_ hd).2 fun d => ?_)
  · exact List.nodup_range.sublist List.filter_sublist
  · simp only [List.mem_filter, List.mem_range, decide_eq_true_eq]
    exact ⟨fun h => h.2, fun h => ⟨hb d h, h⟩⟩

theorem filter_or {α : Type} (l : List α) (p q : α → Bool) (h : ∀ d ∈ l, p d = true → q d = true → False) :
    (l.filter fun d => p d || q d).length = (l.filter p).length + (l.filter q).length := by
  induction l with
  | nil => rfl
  | cons x l ih =>
    have ih := ih fun d hd => h d (List.mem_cons_of_mem _ hd)
    have hx := h x List.mem_cons_self
    simp only [List.filter_cons]
    cases hp : p x <;> cases hq : q x <;> simp_all <;> omega

theorem filter_congr_len {α : Type} {l : List α} {p q : α → Bool} (h : ∀ d ∈ l, p d = q d) :
    (l.filter p).length = (l.filter q).length := by rw [List.filter_congr h]

/-- Number of members below `n`. -/
def card (n : Nat) (s : FdSet) : Nat := ((List.range n).filter s).length

theorem card_zero {n : Nat} {s : FdSet} (h : card n s = 0) {d : Nat} (hd : d < n) : s d = false := by
  have : (List.range n).filter s = [] := List.eq_nil_of_length_eq_zero h
  rw [List.filter_eq_nil_iff] at this
  simpa using this d (List.mem_range.2 hd)

theorem card_empty (n : Nat) : card n emptySet = 0 := by simp [card, emptySet]

theorem rawAt_iff {req : FdSet} {obs : Nat → Option View} {d : Nat} {t : Int × Nat} :
    rawAt req obs d = some t ↔ req d = true ∧ t.2 = d ∧ ∃ est, obs d = some (.inet t.1 est) ∧ 0 ≤ t.1 := by
  obtain ⟨raw, d'⟩ := t
  unfold rawAt
  by_cases hr : req d = true
  · simp only [hr, if_true, Option.map_eq_some_iff, Option.bind_eq_some_iff, Prod.mk.injEq, true_and]
    constructor
    · rintro ⟨x, ⟨v, hv, hx⟩, rfl, rfl⟩
      cases v with
      | inet raw est =>
        simp only [rawOf] at hx
        split at hx
        · cases hx
        · rename_i hn
          cases hx
          exact ⟨rfl, est, hv, by omega⟩
      | _ => simp [rawOf] at hx
    · rintro ⟨rfl, est, hv, hp⟩
      exact ⟨raw, ⟨_, hv, by simp only [rawOf, if_neg (by omega : ¬ raw < 0)]⟩, rfl, rfl⟩
  · simp [hr]

theorem hits_not_inet {req : FdSet} {obs : Nat → Option View} {d : Nat} (h : hits req obs d = true) {t : Int × Nat}
    (h' : rawAt req obs d = some t) : False := by
  obtain ⟨-, -, est, ho, -⟩ := rawAt_iff.1 h'
  simp [hits, ho, hitR] at h

theorem raws_nodup {req : FdSet} {obs : Nat → Option View} {l : List Nat} (hl : l.Nodup) :
    ((l.filterMap (rawAt req obs)).map (·.2)).Nodup := by
  induction l with
  | nil => simp
  | cons d l ih =>
    have hl' := List.nodup_cons.1 hl
    rw [List.filterMap_cons]
    cases hd : rawAt req obs d with
    | none => exact ih hl'.2
    | some t =>
      simp only [List.map_cons, List.nodup_cons]
      refine ⟨?_, ih hl'.2⟩
      intro hm
      obtain ⟨u, hu, e⟩ := List.mem_map.1 hm
      obtain ⟨d', hd', e'⟩ := List.mem_filterMap.1 hu
      have e1 := (rawAt_iff.1 hd).2.1
      have e2 := (rawAt_iff.1 e').2.1
      have : d' = d := by rw [← e2, e, e1]
      exact hl'.1 (this ▸ hd')

/-- Ready for reading, with the host's answer. -/
def readyR (h : Host) (v : View) : Prop :=
  hitR v = true ∨ ∃ raw est, v = .inet raw est ∧ 0 ≤ raw ∧ h.fail = false ∧ h.ready raw = true

theorem selectRead_ok {n : Nat} {req : FdSet} {p : Pass} {s : FdSet} {c : Nat}
    (h : selectRead n req p emptySet 0 = .ok (s, c)) :
    (∀ d, d < n → req d = true → ∃ v, p.rd d = some v ∧ stopR v = none) ∧
    c = card n s ∧
    (∀ d, s d = true → d < n ∧ req d = true ∧ ∃ v, p.rd d = some v ∧ readyR p.host v) ∧
    (c = 0 → ∀ d v, d < n → req d = true → p.rd d = some v → ¬ readyR p.host v) := by
  unfold selectRead at h
  split at h
  · cases h
  · rename_i a ha
    obtain ⟨i1, i2, i3, i4⟩ := readLoop_ok ha
    simp only [Nat.zero_add, List.nil_append, emptySet, Bool.false_or] at i2 i3 i4
    have hnr : a.raws = [] → ∀ d v, d < n → req d = true → p.rd d = some v → ∀ raw est, v = .inet raw est → 0 ≤ raw → False := by
      intro hr d v hd hq ho raw est hv hp
      have : (raw, d) ∈ a.raws := by
        rw [i4]
        exact List.mem_filterMap.2 ⟨d, List.mem_range.2 hd, rawAt_iff.2 ⟨hq, rfl, est, by rw [ho, hv], hp⟩⟩
      rw [hr] at this; cases this
    have hset : ∀ d, a.set d = true → d < n ∧ req d = true ∧ ∃ v, p.rd d = some v ∧ readyR p.host v := by
      intro d hd
      rw [i3] at hd
      simp only [Bool.and_eq_true, decide_eq_true_eq, List.mem_range, hits] at hd
      obtain ⟨h1, h2, h3⟩ := hd
      refine ⟨h1, h2, ?_⟩
      cases ho : p.rd d with
      | none => rw [ho] at h3; cases h3
      | some v => rw [ho] at h3; exact ⟨v, rfl, .inl h3⟩
    have hcard : a.ret = card n a.set := by
      rw [i2]
      refine filter_congr_len fun d hd => ?_
      simp [i3, List.mem_range.1 hd]
    have hzero : a.ret = 0 → ∀ d v, d < n → req d = true → p.rd d = some v → hitR v = false := by
      intro hz d v hd hq ho
      have := card_zero (hcard ▸ hz) hd
      rw [i3] at this
      simpa [hits, ho, hq, hd] using this
    split at h
    · cases h
    · rename_i a' hh
      cases h
      unfold hostPart at hh
      split at hh
      · rename_i hr
        cases hh
        refine ⟨fun d hd => i1 d (List.mem_range.2 hd), hcard, hset, ?_⟩
        rintro hz d v hd hq ho (hv | ⟨raw, est, hv, hp, -⟩)
        · rw [hzero hz d v hd hq ho] at hv; cases hv
        · exact hnr hr d v hd hq ho raw est hv hp
      · split at hh
        · split at hh
          · cases hh
          · rename_i hne
            cases hh
            exact ⟨fun d hd => i1 d (List.mem_range.2 hd), hcard, hset, fun hz => absurd hz hne⟩
        · rename_i hf
          have hf : p.host.fail = false := by simpa using hf
          cases hh
          dsimp only
          have hts : ∀ t ∈ (firsts a.raws).filter (fun t => p.host.ready t.1),
              t.2 < n ∧ rawAt req p.rd t.2 = some t ∧ p.host.ready t.1 = true := by
            intro t ht
            obtain ⟨h1, h2⟩ := List.mem_filter.1 ht
            have := firsts_sub t h1
            rw [i4] at this
            obtain ⟨d, hd, e⟩ := List.mem_filterMap.1 this
            have e2 := (rawAt_iff.1 e).2.1
            rw [e2]
            exact ⟨List.mem_range.1 hd, e, h2⟩
          have hnd : (((firsts a.raws).filter (fun t => p.host.ready t.1)).map (·.2)).Nodup := by
            have h1 : (((firsts a.raws).filter (fun t => p.host.ready t.1)).map (·.2)).Sublist (a.raws.map (·.2)) :=
              (List.filter_sublist.trans (firsts_sublist _)).map _
            have h2 : (a.raws.map (·.2)).Nodup := by rw [i4]; exact raws_nodup List.nodup_range
            exact h2.sublist h1
          refine ⟨fun d hd => i1 d (List.mem_range.2 hd), ?_, ?_, ?_⟩
          · have e1 := count_list (n := n) hnd (by
              intro d hd
              obtain ⟨t, ht, e⟩ := List.mem_map.1 hd
              exact e ▸ (hts t ht).1)
            rw [List.length_map] at e1
            rw [hcard, ← e1]
            refine (filter_or _ _ _ ?_).symm
            intro d hd h1 h2
            rw [i3] at h1
            simp only [Bool.and_eq_true, decide_eq_true_eq] at h1
            obtain ⟨t, ht, e⟩ := List.mem_map.1 (of_decide_eq_true h2)
            have := (hts t ht).2.1
            rw [e] at this
            exact hits_not_inet h1.2 this
          · intro d hd
            simp only [Bool.or_eq_true, decide_eq_true_eq] at hd
            rcases hd with hd | hd
            · exact hset d hd
            · obtain ⟨t, ht, e⟩ := List.mem_map.1 hd
              obtain ⟨h1, h2, h3⟩ := hts t ht
              rw [e] at h1 h2
              obtain ⟨r1, -, est, r3, r4⟩ := rawAt_iff.1 h2
              exact ⟨h1, r1, _, r3, .inr ⟨t.1, est, rfl, r4, hf, h3⟩⟩
          · intro hz d v hd hq ho hv
            have hz1 : a.ret = 0 := by omega
            have hz2 : (firsts a.raws).filter (fun t => p.host.ready t.1) = [] := List.eq_nil_of_length_eq_zero (by omega)
            rcases hv with hv | ⟨raw, est, hv, hp, -, hh⟩
            · rw [hzero hz1 d v hd hq ho] at hv; cases hv
            · have : (raw, d) ∈ a.raws := by
                rw [i4]
                exact List.mem_filterMap.2 ⟨d, List.mem_range.2 hd, rawAt_iff.2 ⟨hq, rfl, est, by rw [ho, hv], hp⟩⟩
              obtain ⟨u, hu, e⟩ := firsts_cover this
              rw [List.filter_eq_nil_iff] at hz2
              exact hz2 u hu (by rw [e]; exact hh)

theorem selectRead_err {n : Nat} {req : FdSet} {p : Pass} {r : Ret} (h : selectRead n req p emptySet 0 = .error r) :
    (∃ d, d < n ∧ req d = true ∧ ((p.rd d = none ∧ r = .err .EBADF) ∨ ∃ v, p.rd d = some v ∧ stopR v = some r)) ∨
    (p.host.fail = true ∧ r = .err .EPERM) := by
  unfold selectRead at h
  split at h
  · rename_i x hx
    cases h
    obtain ⟨d, hd, k⟩ := readLoop_err hx
    exact .inl ⟨d, List.mem_range.1 hd, k⟩
  · split at h
    · rename_i hh
      cases h
      unfold hostPart at hh
      split at hh
      · cases hh
      · split at hh
        · rename_i hf
          split at hh
          · cases hh; exact .inr ⟨hf, rfl⟩
          · cases hh
        · cases hh
    · cases h

/-! ## Writing -/

/-- Ready for writing. -/
def hitW : View → Bool
  | .pipe p => p.selectWrite
  | .other => false
  | _ => true

/-- The descriptors the write loop counts. -/
def hitsW (req : FdSet) (obs : Nat → Option View) (d : Nat) : Bool :=
  req d && (match obs d with | none => false | some v => hitW v)

theorem writeOne_ok {v : View} {b : Bool} (h : writeOne v = .ok b) : b = hitW v := by
  cases v with
  | unix u => simp only [writeOne] at h; repeat' split at h
              all_goals (cases h; try rfl)
  | inet raw est => simp only [writeOne] at h; split at h <;> cases h; rfl
  | _ => simp only [writeOne] at h <;> cases h <;> rfl

theorem writeOne_err {v : View} {r : Ret} (h : writeOne v = .error r) : r ≠ .err .EBADF := by
  cases v with
  | unix u => simp only [writeOne] at h; repeat' split at h
              all_goals (cases h; try simp)
  | inet raw est => simp only [writeOne] at h; split at h <;> cases h; simp
  | _ => simp only [writeOne] at h <;> cases h <;> simp

theorem writeLoop_ok {req : FdSet} {obs : Nat → Option View} {l : List Nat} {a a' : FdSet × Nat}
    (h : writeLoop req obs l a = .ok a') :
    (∀ d ∈ l, req d = true → ∃ v b, obs d = some v ∧ writeOne v = .ok b) ∧
    a'.2 = a.2 + (l.filter (hitsW req obs)).length ∧
    (∀ d, a'.1 d = (a.1 d || (decide (d ∈ l) && hitsW req obs d))) := by
  induction l generalizing a with
  | nil => cases h; simp
  | cons fd l ih =>
    simp only [writeLoop] at h
    by_cases hr : req fd = false
    · simp only [hr, if_true] at h
      obtain ⟨i1, i2, i3⟩ := ih h
      have hh : hitsW req obs fd = false := by simp [hitsW, hr]
      refine ⟨?_, ?_, ?_⟩
      · intro d hd hq
        rcases List.mem_cons.1 hd with rfl | hd
        · rw [hr] at hq; cases hq
        · exact i1 d hd hq
      · rw [i2]; simp [hh]
      · intro d
        rw [i3]
        by_cases hd : d = fd
        · subst hd; simp [hh]
        · simp [hd]
    · have hr : req fd = true := by simpa using hr
      simp only [hr, Bool.true_eq_false, if_false] at h
      cases ho : obs fd with
      | none => rw [ho] at h; cases h
      | some v =>
        rw [ho] at h
        dsimp only at h
        cases hs : writeOne v with
        | error r => rw [hs] at h; cases h
        | ok b =>
          rw [hs] at h
          dsimp only at h
          obtain ⟨i1, i2, i3⟩ := ih h
          have hb := writeOne_ok hs
          have hh : hitsW req obs fd = b := by simp [hitsW, hr, ho, hb]
          refine ⟨?_, ?_, ?_⟩
          · intro d hd hq
            rcases List.mem_cons.1 hd with rfl | hd
            · exact ⟨v, b, ho, hs⟩
            · exact i1 d hd hq
          · rw [i2, List.filter_cons, hh]
            cases b <;> simp <;> omega
          · intro d
            rw [i3]
            by_cases hd : d = fd
            · subst hd; cases b <;> simp [hh]
            · have : (d == fd) = false := by simpa using hd
              cases b <;> simp [hd, this]

theorem writeLoop_err {req : FdSet} {obs : Nat → Option View} {l : List Nat} {a : FdSet × Nat} {r : Ret}
    (h : writeLoop req obs l a = .error r) :
    ∃ d ∈ l, req d = true ∧ ((obs d = none ∧ r = .err .EBADF) ∨ ∃ v, obs d = some v ∧ writeOne v = .error r) := by
  induction l generalizing a with
  | nil => cases h
  | cons fd l ih =>
    simp only [writeLoop] at h
    by_cases hr : req fd = false
    · simp only [hr, if_true] at h
      obtain ⟨d, hd, k⟩ := ih h
      exact ⟨d, List.mem_cons_of_mem _ hd, k⟩
    · have hr : req fd = true := by simpa using hr
      simp only [hr, Bool.true_eq_false, if_false] at h
      cases ho : obs fd with
      | none =>
        rw [ho] at h; cases h
        exact ⟨fd, List.mem_cons_self, hr, .inl ⟨ho, rfl⟩⟩
      | some v =>
        rw [ho] at h
        dsimp only at h
        cases hs : writeOne v with
        | error r' =>
          rw [hs] at h; cases h
          exact ⟨fd, List.mem_cons_self, hr, .inr ⟨v, ho, hs⟩⟩
        | ok b =>
          rw [hs] at h
          obtain ⟨d, hd, k⟩ := ih h
          exact ⟨d, List.mem_cons_of_mem _ hd, k⟩

theorem exceptLoop_none {req : FdSet} {obs : Nat → Option View} {l : List Nat} (h : exceptLoop req obs l = none) :
    ∀ d ∈ l, req d = true → ∃ v, obs d = some v := by
  induction l with
  | nil => simp
  | cons fd l ih =>
    simp only [exceptLoop] at h
    intro d hd hq
    split at h
    · rename_i hr
      rcases List.mem_cons.1 hd with rfl | hd
      · rw [hr] at hq; cases hq
      · exact ih h d hd hq
    · split at h
      · cases h
      · rename_i hn
        rcases List.mem_cons.1 hd with rfl | hd
        · cases ho : obs d with
          | none => rw [ho] at hn; exact absurd rfl hn
          | some v => exact ⟨v, rfl⟩
        · exact ih h d hd hq

theorem exceptLoop_some {req : FdSet} {obs : Nat → Option View} {l : List Nat} {r : Ret} (h : exceptLoop req obs l = some r) :
    r = .err .EBADF ∧ ∃ d ∈ l, req d = true ∧ obs d = none := by
  induction l with
  | nil => cases h
  | cons fd l ih =>
    simp only [exceptLoop] at h
    split at h
    · obtain ⟨e, d, hd, k⟩ := ih h
      exact ⟨e, d, List.mem_cons_of_mem _ hd, k⟩
    · rename_i hr
      split at h
      · rename_i hn
        cases h
        exact ⟨rfl, fd, List.mem_cons_self, by simpa using hr, by simpa using hn⟩
      · obtain ⟨e, d, hd, k⟩ := ih h
        exact ⟨e, d, List.mem_cons_of_mem _ hd, k⟩

/-! ## A pass -/

/-- Is `d` requested in the set, if there is one? -/
def asks (r : Option FdSet) (d : Nat) : Prop := ∃ req, r = some req ∧ req d = true

def zero : Sets := { rd := emptySet, wr := emptySet, ret := 0 }

structure PassOk (n : Nat) (r w e : Option FdSet) (p : Pass) (a : Sets) : Prop where
  openR : ∀ d, d < n → asks r d → ∃ v, p.rd d = some v ∧ stopR v = none
  openW : ∀ d, d < n → asks w d → ∃ v b, p.wr d = some v ∧ writeOne v = .ok b
  openE : ∀ d, d < n → asks e d → ∃ v, p.ex d = some v
  count : a.ret = card n a.rd + card n a.wr
  bitR : ∀ d, a.rd d = true → d < n ∧ asks r d ∧ ∃ v, p.rd d = some v ∧ readyR p.host v
  bitW : ∀ d, a.wr d = true → d < n ∧ asks w d ∧ ∃ v, p.wr d = some v ∧ hitW v = true
  nothingR : a.ret = 0 → ∀ d v, d < n → asks r d → p.rd d = some v → ¬ readyR p.host v
  nothingW : a.ret = 0 → ∀ d v, d < n → asks w d → p.wr d = some v → hitW v = false

theorem pass_ok {n : Nat} {r w e : Option FdSet} {p : Pass} {a : Sets} (h : pass n r w e p zero = .ok a) :
    PassOk n r w e p a := by
  unfold pass at h
  split at h
  · cases h
  · rename_i a1 h1
    split at h
    · cases h
    · rename_i a2 h2
      -- reading
      have hR : a1.wr = emptySet ∧ (∀ d, d < n → asks r d → ∃ v, p.rd d = some v ∧ stopR v = none) ∧ a1.ret = card n a1.rd ∧
          (∀ d, a1.rd d = true → d < n ∧ asks r d ∧ ∃ v, p.rd d = some v ∧ readyR p.host v) ∧
          (a1.ret = 0 → ∀ d v, d < n → asks r d → p.rd d = some v → ¬ readyR p.host v) := by
        unfold readPart at h1
        split at h1
        · cases h1
          refine ⟨rfl, ?_, (card_empty n).symm, ?_, ?_⟩
          · rintro d - ⟨req, e, -⟩; cases e
          · intro d hd; cases hd
          · rintro - d v - ⟨req, e, -⟩; cases e
        · rename_i req
          split at h1
          · cases h1
          · rename_i rd c hs
            cases h1
            obtain ⟨j1, j2, j3, j4⟩ := selectRead_ok hs
            refine ⟨rfl, ?_, j2, ?_, ?_⟩
            · rintro d hd ⟨_, e, hq⟩; cases e; exact j1 d hd hq
            · intro d hd
              obtain ⟨k1, k2, k3⟩ := j3 d hd
              exact ⟨k1, ⟨_, rfl, k2⟩, k3⟩
            · rintro hz d v hd ⟨_, e, hq⟩ ho; cases e; exact j4 hz d v hd hq ho
      obtain ⟨r0, r1, r2, r3, r4⟩ := hR
      have hW : a2.rd = a1.rd ∧ (∀ d, d < n → asks w d → ∃ v b, p.wr d = some v ∧ writeOne v = .ok b) ∧
          a2.ret = a1.ret + card n a2.wr ∧
          (∀ d, a2.wr d = true → d < n ∧ asks w d ∧ ∃ v, p.wr d = some v ∧ hitW v = true) ∧
          (card n a2.wr = 0 → ∀ d v, d < n → asks w d → p.wr d = some v → hitW v = false) := by
        unfold writePart at h2
        split at h2
        · cases h2
          refine ⟨rfl, ?_, by rw [r0, card_empty]; rfl, ?_, ?_⟩
          · rintro d - ⟨req, e, -⟩; cases e
          · intro d hd; rw [r0] at hd; cases hd
          · rintro - d v - ⟨req, e, -⟩; cases e
        · rename_i req
          split at h2
          · cases h2
          · rename_i wr c hs
            cases h2
            obtain ⟨j1, j2, j3⟩ := writeLoop_ok hs
            simp only [r0, emptySet, Bool.false_or] at j2 j3
            have hc : (List.filter (hitsW req p.wr) (List.range n)).length = card n wr := by
              refine filter_congr_len fun d hd => ?_
              simp [j3, List.mem_range.1 hd]
            refine ⟨rfl, ?_, by rw [← hc]; exact j2, ?_, ?_⟩
            · rintro d hd ⟨_, e, hq⟩; cases e; exact j1 d (List.mem_range.2 hd) hq
            · intro d hd
              dsimp only at hd
              rw [j3] at hd
              simp only [Bool.and_eq_true, decide_eq_true_eq, List.mem_range, hitsW] at hd
              obtain ⟨k1, k2, k3⟩ := hd
              refine ⟨k1, ⟨_, rfl, k2⟩, ?_⟩
              cases ho : p.wr d with
              | none => rw [ho] at k3; cases k3
              | some v => rw [ho] at k3; exact ⟨v, rfl, k3⟩
            · rintro hz d v hd ⟨_, e, hq⟩ ho
              cases e
              have := card_zero hz hd
              dsimp only at this
              rw [j3] at this
              simpa [hitsW, ho, hq, hd] using this
      obtain ⟨w0, w1, w2, w3, w4⟩ := hW
      have hE : a = a2 ∧ ∀ d, d < n → asks e d → ∃ v, p.ex d = some v := by
        unfold exceptPart at h
        split at h
        · cases h; refine ⟨rfl, ?_⟩; rintro d - ⟨req, e, -⟩; cases e
        · split at h
          · cases h
          · rename_i hs
            cases h
            refine ⟨rfl, ?_⟩
            rintro d hd ⟨_, e, hq⟩; cases e
            exact exceptLoop_none hs d (List.mem_range.2 hd) hq
      obtain ⟨rfl, e1⟩ := hE
      refine ⟨r1, w1, e1, ?_, ?_, w3, ?_, ?_⟩
      · rw [w2, r2, w0]
      · rw [w0]; exact r3
      · intro hz; exact r4 (by omega)
      · intro hz; exact w4 (by omega)

theorem pass_zero {n : Nat} {r w e : Option FdSet} {p : Pass} {a : Sets} (h : pass n r w e p zero = .ok a) (hz : a.ret = 0) :
    a = zero := by
  have k := pass_ok h
  have c := k.count
  obtain ⟨rd, wr, ret⟩ := a
  dsimp only at *
  subst hz
  have e1 : rd = emptySet := by
    funext d
    cases hd : rd d with
    | false => rfl
    | true => have := card_zero (by omega : card n rd = 0) (k.bitR d hd).1; rw [hd] at this; cases this
  have e2 : wr = emptySet := by
    funext d
    cases hd : wr d with
    | false => rfl
    | true => have := card_zero (by omega : card n wr = 0) (k.bitW d hd).1; rw [hd] at this; cases this
  subst e1 e2; rfl

theorem pass_err {n : Nat} {r w e : Option FdSet} {p : Pass} {x : Ret} (h : pass n r w e p zero = .error x) :
    (x = .err .EBADF ∧ ∃ d, d < n ∧ ((asks r d ∧ p.rd d = none) ∨ (asks w d ∧ p.wr d = none) ∨ (asks e d ∧ p.ex d = none))) ∨
    (x ≠ .err .EBADF ∧ ((∃ d v, d < n ∧ asks r d ∧ p.rd d = some v ∧ stopR v = some x) ∨
      (p.host.fail = true ∧ x = .err .EPERM) ∨ ∃ d v, d < n ∧ asks w d ∧ p.wr d = some v ∧ writeOne v = .error x)) := by
  unfold pass at h
  split at h
  · rename_i y h1
    cases h
    unfold readPart at h1
    split at h1
    · cases h1
    · split at h1
      · rename_i hs
        cases h1
        rcases selectRead_err hs with ⟨d, hd, hq, ⟨ho, rfl⟩ | ⟨v, ho, hv⟩⟩ | ⟨hf, rfl⟩
        · exact .inl ⟨rfl, d, hd, .inl ⟨⟨_, rfl, hq⟩, ho⟩⟩
        · exact .inr ⟨fun e => stopR_not_ebadf (e ▸ hv), .inl ⟨d, v, hd, ⟨_, rfl, hq⟩, ho, hv⟩⟩
        · exact .inr ⟨by simp, .inr (.inl ⟨hf, rfl⟩)⟩
      · cases h1
  · rename_i a1 h1
    split at h
    · rename_i y h2
      cases h
      unfold writePart at h2
      split at h2
      · cases h2
      · split at h2
        · rename_i hs
          cases h2
          obtain ⟨d, hd, hq, ⟨ho, rfl⟩ | ⟨v, ho, hv⟩⟩ := writeLoop_err hs
          · exact .inl ⟨rfl, d, List.mem_range.1 hd, .inr (.inl ⟨⟨_, rfl, hq⟩, ho⟩)⟩
          · exact .inr ⟨writeOne_err hv, .inr (.inr ⟨d, v, List.mem_range.1 hd, ⟨_, rfl, hq⟩, ho, hv⟩)⟩
        · cases h2
    · unfold exceptPart at h
      split at h
      · cases h
      · split at h
        · rename_i hs
          cases h
          obtain ⟨rfl, d, hd, hq, ho⟩ := exceptLoop_some hs
          exact .inl ⟨rfl, d, List.mem_range.1 hd, .inr (.inr ⟨⟨_, rfl, hq⟩, ho⟩)⟩
        · cases h

/-- How the loop ends: after some passes that found nothing, one that ends it. -/
inductive Ends (n : Nat) (r w e : Option FdSet) (ps : List Pass) (o : Out) : Prop
  | wait : (∀ p ∈ ps, pass n r w e p zero = .ok zero ∧ p.late = false ∧ p.sig = false) → o.ret = .blocked →
      o.rd = r → o.wr = w → Ends n r w e ps o
  | fail {pre p post x} : ps = pre ++ p :: post → (∀ q ∈ pre, pass n r w e q zero = .ok zero ∧ q.late = false) →
      pass n r w e p zero = .error x → o.ret = x → o.rd = r → o.wr = w → Ends n r w e ps o
  | done {pre p post a} : ps = pre ++ p :: post → (∀ q ∈ pre, pass n r w e q zero = .ok zero ∧ q.late = false) →
      pass n r w e p zero = .ok a → a.ret ≠ 0 ∨ p.late = true → o.ret = .ok a.ret → o.rd = (r.map fun _ => a.rd) →
      o.wr = (w.map fun _ => a.wr) → Ends n r w e ps o
  | intr {pre p post} : ps = pre ++ p :: post → (∀ q ∈ pre, pass n r w e q zero = .ok zero ∧ q.late = false) →
      pass n r w e p zero = .ok zero → p.sig = true → o.ret = .err .EINTR → o.rd = r → o.wr = w → Ends n r w e ps o

theorem loop_ends (n : Nat) (r w e : Option FdSet) (ps : List Pass) : Ends n r w e ps (selectLoop n r w e ps zero) := by
  induction ps with
  | nil => exact .wait (by simp) rfl rfl rfl
  | cons p ps ih =>
    generalize ho : selectLoop n r w e (p :: ps) zero = o
    simp only [selectLoop] at ho
    split at ho
    · rename_i x hx; subst ho; exact .fail (pre := []) rfl (by simp) hx rfl rfl rfl
    · rename_i a ha
      split at ho
      · rename_i hc; subst ho; exact .done (pre := []) rfl (by simp) ha hc rfl rfl rfl
      · rename_i hc
        have hz : a.ret = 0 := by omega
        have hl : p.late = false := by
          cases h : p.late with
          | false => rfl
          | true => exact absurd (.inr h) hc
        have := pass_zero ha hz
        subst this
        split at ho
        · rename_i hs; subst ho; exact .intr (pre := []) rfl (by simp) ha hs rfl rfl rfl
        · rename_i hs
          rw [ho] at ih
          have hpre : ∀ pre : List Pass, (∀ q ∈ pre, pass n r w e q zero = .ok zero ∧ q.late = false) →
              ∀ q ∈ p :: pre, pass n r w e q zero = .ok zero ∧ q.late = false := by
            intro pre h q hq
            rcases List.mem_cons.1 hq with rfl | hq
            · exact ⟨ha, hl⟩
            · exact h q hq
          cases ih with
          | wait h1 h2 h3 h4 =>
            refine .wait ?_ h2 h3 h4
            intro q hq
            rcases List.mem_cons.1 hq with rfl | hq
            · exact ⟨ha, hl, by simpa using hs⟩
            · exact h1 q hq
          | fail h1 h2 h3 h4 h5 h6 => exact .fail (pre := p :: _) (by rw [h1]; rfl) (hpre _ h2) h3 h4 h5 h6
          | done h1 h2 h3 h4 h5 h6 h7 => exact .done (pre := p :: _) (by rw [h1]; rfl) (hpre _ h2) h3 h4 h5 h6 h7
          | intr h1 h2 h3 h4 h5 h6 h7 => exact .intr (pre := p :: _) (by rw [h1]; rfl) (hpre _ h2) h3 h4 h5 h6 h7

end Verif.Select
