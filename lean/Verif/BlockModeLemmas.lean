import Verif.BlockMode

/-! # Lemmas about the blocking mode of a socket -/

namespace Verif.BlockMode

set_option linter.unusedSimpArgs false

structure HOk (x : Handle) : Prop where
  bound : x.bound = true → x.host.isSome = true
  conn : x.conn ≠ .apart → x.host.isSome = true

/-- A change of a handle that keeps what is there. -/
structure Grows (x y : Handle) : Prop where
  ok : HOk x → HOk y
  host : x.host.isSome = true → y.host.isSome = true
  proto : y.proto = x.proto

theorem Grows.refl (x : Handle) : Grows x x := ⟨id, id, rfl⟩

theorem force_grows (x : Handle) : Grows x x.force := by
  unfold Handle.force; split
  · refine ⟨fun h => ⟨?_, ?_⟩, ?_, rfl⟩ <;> simp
  · exact Grows.refl x

theorem force_host (x : Handle) : x.force.host.isSome = true := by
  unfold Handle.force; split
  · rfl
  · rename_i h; simp [h]

theorem bind_grows (x : Handle) : Grows x x.bind := by
  unfold Handle.bind; split
  · exact Grows.refl x
  · have h := force_grows x; have k := force_host x
    exact ⟨fun _ => ⟨fun _ => k, fun _ => k⟩, fun _ => k, h.proto⟩

theorem bind_host {x : Handle} (h : HOk x) : x.bind.host.isSome = true := by
  unfold Handle.bind; split
  · rename_i hb; exact h.bound hb
  · exact force_host x

theorem mode_grows (x : Handle) (nb : Bool) : Grows x (x.mode nb) := by
  unfold Handle.mode; split
  · exact Grows.refl x
  · refine ⟨fun h => ⟨?_, ?_⟩, ?_, rfl⟩ <;> simp

theorem listen_grows (x : Handle) :
    Grows x (if x.conn = .apart ∧ x.proto = .tcp then { x.bind with conn := .listening } else x) := by
  split
  · have h := bind_grows x
    refine ⟨fun k => ⟨fun b => (h.ok k).bound b, fun _ => bind_host k⟩, fun k => h.host k, h.proto⟩
  · exact Grows.refl x

theorem start_grows (x : Handle) (c : Call) (est : Bool) : Grows x (start x c est).1 := by
  unfold start
  repeat' split
  all_goals first | exact Grows.refl x | exact bind_grows x | skip
  · exact force_grows x
  · rename_i h0; exact ⟨fun h => ⟨h.bound, fun _ => h.conn (by rw [h0.1]; exact (nomatch ·))⟩, id, rfl⟩

theorem start_host {x y : Handle} {c : Call} {est : Bool} (h : HOk x) (hs : start x c est = (y, none)) : y.host.isSome = true := by
  have hb := bind_host h
  have hf := force_host x
  have h1 := h.bound
  have h2 := h.conn
  unfold start at hs
  grind

theorem question_grows (x : Handle) (c : Call) (nb ready : Bool) (_h : x.host.isSome = true) :
    Grows x (question x c nb ready).1 := by
  unfold question
  repeat' split
  all_goals first | exact Grows.refl x | skip
  all_goals (refine ⟨fun k => ⟨?_, ?_⟩, ?_, rfl⟩ <;> simp_all)

theorem question_panic {x : Handle} {c : Call} {nb ready : Bool} (h : x.host.isSome = true) :
    ∀ a, (question x c nb ready).2.1 = .ret a → a ≠ .panic := by
  unfold question
  grind

structure Inv (s : St) : Prop where
  ok : ∀ x ∈ s.hs, HOk x
  desc : ∀ d e, s.descs d = some e → e.h < s.hs.length
  /-- a thread in a call still has its descriptor, with the flag it had -/
  pend : ∀ p ∈ s.pend, s.descs p.d = some { h := p.h, nb := p.nb0 }
  host : ∀ p ∈ s.pend, ∀ x, s.hs[p.h]? = some x → x.host.isSome = true
  one : ∀ p ∈ s.pend, ∀ q ∈ s.pend, p.t = q.t → p = q
  apart : ∀ p ∈ s.pend, ∀ q ∈ s.pend, p.call ≠ .accept q.d
  fresh : ∀ p ∈ s.pend, ∀ d', p.call = .accept d' → s.descs d' = none
  target : ∀ p ∈ s.pend, ∀ q ∈ s.pend, ∀ d', p.call = .accept d' → q.call = .accept d' → p = q
  /-- a receive or accept without waiting asks just once -/
  first : ∀ p ∈ s.pend, (p.call = .recv ∨ ∃ d', p.call = .accept d') → p.nb0 = true → p.tries = 0 ∧ p.secs = 0

theorem inv_init : Inv St.init := by
  constructor <;> simp [St.init]

theorem busy_false {s : St} {d : Nat} (h : s.busy d = false) {p : Pend} (hp : p ∈ s.pend) : p.d ≠ d ∧ p.call ≠ .accept d := by
  simp only [St.busy, List.any_eq_false] at h
  have := h p hp
  simp at this; exact this

/-- Changing one handle. -/
theorem inv_set {s : St} (h : Inv s) {i : Nat} {x y : Handle} (hx : s.hs[i]? = some x) (g : Grows x y) :
    Inv { s with hs := s.hs.set i y } := by
  have hi : i < s.hs.length := by
    rcases Nat.lt_or_ge i s.hs.length with k | k
    · exact k
    · rw [List.getElem?_eq_none k] at hx; cases hx
  refine ⟨?_, ?_, h.pend, ?_, h.one, h.apart, h.fresh, h.target, h.first⟩
  · intro z hz
    rcases List.mem_or_eq_of_mem_set hz with k | k
    · exact h.ok z k
    · rw [k]; exact g.ok (h.ok x (List.mem_of_getElem? hx))
  · intro d e he; simp only [List.length_set]; exact h.desc d e he
  · intro p hp z hz
    simp only [List.getElem?_set, hi, if_true] at hz
    split at hz
    · rename_i hpi
      have hl : p.h < s.hs.length := hpi ▸ hi
      cases hz; exact g.host (h.host p hp x (by rw [← hpi]; exact hx))
    · exact h.host p hp z hz

theorem onHandle_inv {s s' : St} (h : Inv s) {d : Nat} {f : Handle → Handle} (g : ∀ x, Grows x (f x))
    (hs : onHandle s d f = some s') : Inv s' ∧ s'.descs = s.descs ∧ s'.pend = s.pend ∧ s.busy d = false := by
  unfold onHandle at hs
  split at hs
  · cases hs
  · rename_i hb
    have hb : s.busy d = false := by simpa using hb
    repeat' split at hs
    all_goals cases hs
    · exact ⟨h, rfl, rfl, hb⟩
    · exact ⟨h, rfl, rfl, hb⟩
    · rename_i x hx; exact ⟨inv_set h hx (g _), rfl, rfl, hb⟩

/-- Changing the entry of a descriptor that nobody uses. -/
theorem inv_upd {s : St} (h : Inv s) {d : Nat} (hb : s.busy d = false) {e : Option Desc} (he : ∀ x, e = some x → x.h < s.hs.length) :
    Inv { s with descs := upd s.descs d e } := by
  refine ⟨h.ok, ?_, ?_, h.host, h.one, h.apart, ?_, h.target, h.first⟩
  · intro d' e' k
    simp only [upd] at k
    split at k
    · exact he _ k
    · exact h.desc d' e' k
  · intro p hp
    have := (busy_false hb hp).1
    simp only [upd, if_neg this]; exact h.pend p hp
  · intro p hp d' hc
    have := (busy_false hb hp).2
    have hne : d' ≠ d := fun k => this (k ▸ hc)
    simp only [upd, if_neg hne]; exact h.fresh p hp d' hc

/-- One more handle. -/
theorem inv_more {s : St} (h : Inv s) {x : Handle} (hx : HOk x) : Inv { s with hs := s.hs ++ [x] } := by
  refine ⟨?_, ?_, h.pend, ?_, h.one, h.apart, h.fresh, h.target, h.first⟩
  · intro z hz; simp at hz; rcases hz with k | k
    · exact h.ok z k
    · rw [k]; exact hx
  · intro d e he; have := h.desc d e he; simp; omega
  · intro p hp z hz
    have hl := h.desc _ _ (h.pend p hp)
    simp only at hl
    rw [List.getElem?_append_left hl] at hz
    exact h.host p hp z hz

theorem mem_filter_pend {l : List Pend} {t : Nat} {p : Pend} (h : p ∈ l.filter (·.t != t)) : p ∈ l ∧ p.t ≠ t := by
  simpa using h

/-- Fewer threads in calls. -/
theorem inv_fewer {s : St} (h : Inv s) {l : List Pend} (hl : ∀ p ∈ l, p ∈ s.pend) : Inv { s with pend := l } :=
  ⟨h.ok, h.desc, fun p hp => h.pend p (hl p hp), fun p hp => h.host p (hl p hp), fun p hp q hq => h.one p (hl p hp) q (hl q hq),
   fun p hp q hq => h.apart p (hl p hp) q (hl q hq), fun p hp => h.fresh p (hl p hp), fun p hp q hq => h.target p (hl p hp) q (hl q hq),
   fun p hp => h.first p (hl p hp)⟩

theorem of_mem {s : St} {t : Nat} {p : Pend} (h : s.of t = some p) : p ∈ s.pend ∧ p.t = t := by
  have h1 := List.mem_of_find?_eq_some h
  have h2 := List.find?_some h
  exact ⟨h1, by simpa using h2⟩

/-- A question that does not end a call is not one of a receive or accept without waiting. -/
theorem stay_blocking {x : Handle} {c : Call} {nb ready : Bool} (hs : (question x c nb ready).2.1 = .stay)
    (hc : c = .recv ∨ ∃ d', c = .accept d') : nb = false := by
  unfold question at hs
  rcases hc with rfl | ⟨d', rfl⟩ <;> grind [hostTake]

theorem inv_stay {s : St} (h : Inv s) {t : Nat} {p : Pend} (hp : p ∈ s.pend) (ht : p.t = t) (secs : Nat)
    (hc : (p.call = .recv ∨ ∃ d', p.call = .accept d') → p.nb0 = false) :
    Inv { s with pend := s.pend.map fun q => if q.t = t then { q with tries := q.tries + 1, secs := secs } else q } := by
  refine ⟨h.ok, h.desc, ?_, ?_, ?_, ?_, ?_, ?_, ?_⟩
  · intro q hq; simp only [List.mem_map] at hq; obtain ⟨r, hr, rfl⟩ := hq
    have := h.pend r hr; split <;> exact this
  · intro q hq; simp only [List.mem_map] at hq; obtain ⟨r, hr, rfl⟩ := hq
    have := h.host r hr; split <;> exact this
  · intro q hq q' hq'; simp only [List.mem_map] at hq hq'; obtain ⟨r, hr, rfl⟩ := hq; obtain ⟨r', hr', rfl⟩ := hq'
    have := h.one r hr r' hr'; intro k; grind
  · intro q hq q' hq'; simp only [List.mem_map] at hq hq'; obtain ⟨r, hr, rfl⟩ := hq; obtain ⟨r', hr', rfl⟩ := hq'
    have := h.apart r hr r' hr'; grind
  · intro q hq; simp only [List.mem_map] at hq; obtain ⟨r, hr, rfl⟩ := hq
    have := h.fresh r hr; split <;> exact this
  · intro q hq q' hq'; simp only [List.mem_map] at hq hq'; obtain ⟨r, hr, rfl⟩ := hq; obtain ⟨r', hr', rfl⟩ := hq'
    have := h.target r hr r' hr'; intro d' k k'; grind
  · intro q hq; simp only [List.mem_map] at hq; obtain ⟨r, hr, rfl⟩ := hq
    have h1 := h.first r hr
    split
    · rename_i k
      have : r = p := h.one r hr p hp (k.trans ht.symm)
      subst this
      intro k1 k2
      have := hc k1
      simp_all
    · exact h1

theorem lt_of_get {s : St} {i : Nat} {x : Handle} (hx : s.hs[i]? = some x) : i < s.hs.length := by
  rcases Nat.lt_or_ge i s.hs.length with k | k
  · exact k
  · rw [List.getElem?_eq_none k] at hx; cases hx

theorem get_of_lt {s : St} {i : Nat} (h : i < s.hs.length) : ∃ x, s.hs[i]? = some x := ⟨s.hs[i], List.getElem?_eq_getElem h⟩

theorem begin_inv {s s' : St} (h : Inv s) {t d : Nat} {c : Call} {est : Bool} {n : Option Note}
    (hs : begin' s t d c est = some (s', n)) : Inv s' := by
  unfold begin' at hs
  split at hs
  · cases hs
  rename_i hb
  have hb1 : s.busy d = false := by grind
  have hb2 : s.pend.any (·.t == t) = false := by grind
  split at hs
  · cases hs; exact h
  rename_i e he
  split at hs
  · cases hs
  rename_i htk
  split at hs
  · cases hs; exact h
  rename_i x hx
  split at hs
  · rename_i y a hst
    cases hs
    have g := start_grows x c est; rw [hst] at g
    exact inv_set h hx g
  · rename_i y hst
    cases hs
    have g := start_grows x c est; rw [hst] at g
    have h1 := inv_set h hx g
    have hlt := lt_of_get hx
    have hho := start_host (h.ok x (List.mem_of_getElem? hx)) hst
    have hne : ∀ p ∈ s.pend, p.t ≠ t := by
      intro p hp k; simp only [List.any_eq_false] at hb2; have := hb2 p hp; simp [k] at this
    have htk2 : ∀ d', c = .accept d' → d' ≠ d ∧ s.busy d' = false ∧ s.descs d' = none := by
      intro d' hc; subst hc; simp [St.taken] at htk; exact ⟨htk.2.1.1, htk.2.1.2, by simpa using htk.2.2⟩
    refine ⟨h1.ok, h1.desc, ?_, ?_, ?_, ?_, ?_, ?_, ?_⟩
    · intro p hp; simp only [List.mem_cons] at hp
      rcases hp with rfl | hp
      · exact he
      · exact h.pend p hp
    · intro p hp z hz; simp only [List.mem_cons] at hp
      rcases hp with rfl | hp
      · simp only [List.getElem?_set, hlt, if_true] at hz; cases hz; exact hho
      · exact h1.host p hp z hz
    · intro p hp q hq; simp only [List.mem_cons] at hp hq
      rcases hp with rfl | hp <;> rcases hq with rfl | hq
      · exact fun _ => rfl
      · intro k; exact absurd k.symm (hne q hq)
      · intro k; exact absurd k (hne p hp)
      · exact h.one p hp q hq
    · intro p hp q hq; simp only [List.mem_cons] at hp hq
      rcases hp with rfl | hp <;> rcases hq with rfl | hq
      · intro k; exact (htk2 d k).1 rfl
      · intro k; exact (busy_false (htk2 q.d k).2.1 hq).1 rfl
      · intro k; exact (busy_false hb1 hp).2 k
      · exact h.apart p hp q hq
    · intro p hp d' k; simp only [List.mem_cons] at hp
      rcases hp with rfl | hp
      · exact (htk2 d' k).2.2
      · exact h.fresh p hp d' k
    · intro p hp q hq d' k k'; simp only [List.mem_cons] at hp hq
      rcases hp with rfl | hp <;> rcases hq with rfl | hq
      · rfl
      · exact absurd k' (busy_false (htk2 d' k).2.1 hq).2
      · exact absurd k (busy_false (htk2 d' k').2.1 hp).2
      · exact h.target p hp q hq d' k k'
    · intro p hp; simp only [List.mem_cons] at hp
      rcases hp with rfl | hp
      · exact fun _ _ => ⟨rfl, rfl⟩
      · exact h.first p hp

theorem ask_inv {s s' : St} (h : Inv s) {t : Nat} {ready : Bool} {n : Option Note} (hs : ask s t ready = some (s', n)) : Inv s' := by
  unfold ask at hs
  split at hs
  · cases hs
  rename_i p hp
  obtain ⟨hm, ht⟩ := of_mem hp
  have hd := h.pend p hm
  split at hs
  · cases hs
  split at hs
  · rename_i e x he hx
    rw [hd] at he; cases he
    dsimp only at hs
    have hho := h.host p hm x hx
    have g := question_grows x p.call p.nb0 ready hho
    have h1 := inv_set h hx g
    split at hs
    · rename_i a ha
      cases hs
      have hf : ∀ q ∈ s.pend.filter (·.t != t), q ∈ s.pend := fun q hq => (mem_filter_pend hq).1
      unfold accepted
      split
      · rename_i d' hcall
        have hfr := h.fresh p hm d' hcall
        have hnb : ({ s with pend := s.pend.filter (·.t != t) } : St).busy d' = false := by
          simp only [St.busy, List.any_eq_false]
          intro q hq
          obtain ⟨hq1, hq2⟩ := mem_filter_pend hq
          have := h.apart p hm q hq1
          have h2 := h.target p hm q hq1 d' hcall
          simp only [Bool.or_eq_true, beq_iff_eq, not_or]
          refine ⟨fun k => this (k ▸ hcall), fun k => hq2 ((h2 k) ▸ ht)⟩
        have h2 := inv_more (x := ({ proto := x.proto, born := x.born, host := some false, conn := .joined, bound := true } : Handle))
          (inv_fewer h1 (l := s.pend.filter (·.t != t)) hf) ⟨fun _ => rfl, fun _ => rfl⟩
        have h3 := inv_upd h2 (d := d') hnb (e := some { h := s.hs.length, nb := p.nb0 }) (by intro x k; cases k; simp)
        simpa using h3
      · exact inv_fewer h1 hf
    · rename_i ha
      cases hs
      exact inv_stay h1 hm ht _ (fun k => stay_blocking ha k)
  · cases hs; exact h

theorem step_inv {s s' : St} (h : Inv s) {a : Act} {n : Option Note} (hs : step s a = some (s', n)) : Inv s' := by
  cases a with
  | socket d p nb =>
    simp only [step, socket, Option.map_eq_some_iff] at hs
    obtain ⟨r, hr, k⟩ := hs; cases k
    split at hr
    · cases hr
    · rename_i hb; cases hr
      have hb1 : s.busy d = false := by grind
      have h1 := inv_more h (x := ({ proto := p, born := nb, host := none, conn := .apart, bound := false } : Handle))
        ⟨by simp, by simp⟩
      exact inv_upd h1 hb1 (by intro x k; cases k; simp)
  | setfl d nb =>
    simp only [step, Option.map_eq_some_iff] at hs
    obtain ⟨r, hr, k⟩ := hs; cases k
    unfold setfl at hr
    split at hr
    · cases hr
    rename_i s1 h1
    obtain ⟨i1, e1, e2, hb⟩ := onHandle_inv h (fun x => mode_grows x nb) h1
    have hb' : s1.busy d = false := by unfold St.busy at hb ⊢; rw [e2]; exact hb
    split at hr
    · cases hr; exact i1
    · rename_i e he; cases hr
      exact inv_upd i1 hb' (by intro x k; cases k; exact i1.desc d e he)
  | fionbio d nb =>
    simp only [step, Option.map_eq_some_iff] at hs
    obtain ⟨r, hr, k⟩ := hs; cases k
    unfold fionbio at hr
    split at hr
    · split at hr
      · cases hr
      · cases hr; exact h
    · rename_i e he
      have hb : s.busy d = false := by
        unfold onHandle at hr; split at hr
        · cases hr
        · rename_i hb; simpa [St.busy] using hb
      exact (onHandle_inv (inv_upd h hb (by intro x k; cases k; exact h.desc d e he)) (fun x => mode_grows x nb) hr).1
  | copy d d' =>
    simp only [step, Option.map_eq_some_iff] at hs
    obtain ⟨r, hr, k⟩ := hs; cases k
    unfold copy at hr
    split at hr
    · cases hr
    rename_i hb
    split at hr
    · cases hr; exact h
    · rename_i e he
      split at hr
      · cases hr
      · cases hr
        exact inv_upd h (by grind) (by intro x k; cases k; exact h.desc d e he)
  | close d =>
    simp only [step, Option.map_eq_some_iff] at hs
    obtain ⟨r, hr, k⟩ := hs; cases k
    unfold close at hr
    split at hr
    · cases hr
    rename_i hb
    split at hr
    · cases hr; exact h
    · split at hr
      · cases hr
      · cases hr
        exact inv_upd h (by grind) (by intro x k; cases k)
  | bind d =>
    simp only [step, Option.map_eq_some_iff] at hs
    obtain ⟨r, hr, k⟩ := hs; cases k
    exact (onHandle_inv h bind_grows hr).1
  | listen d =>
    simp only [step, Option.map_eq_some_iff] at hs
    obtain ⟨r, hr, k⟩ := hs; cases k
    exact (onHandle_inv h listen_grows hr).1
  | begin t d c est => exact begin_inv h hs
  | ask t ready => exact ask_inv h hs

theorem runFrom_inv {s : St} (h : Inv s) (l : List Act) : Inv (runFrom s l).1 := by
  induction l generalizing s with
  | nil => exact h
  | cons a l ih =>
    simp only [runFrom]
    split
    · exact ih h
    · rename_i s' n hs; exact ih (step_inv h hs)

theorem run_inv (l : List Act) : Inv (run l).1 := runFrom_inv inv_init l

end Verif.BlockMode
