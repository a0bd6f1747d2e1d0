import Verif.FollowProps
import Verif.DataConcProps
import Verif.FollowWitness

/-!
# Following a log while it is written (property C110)

The writer's threads write and the follower reads at the same time, lock by lock (`Verif.DataConc`).
-/

namespace Verif.Follow
open Verif.Fs Verif.Kernel Verif.DataConc

/-! ## Specification -/

/-- The calls: threads other than `r` write through the writer's descriptor, thread `r` reads through the follower's. -/
def Asks (P : Plan) (r t : Nat) (j : Job) : Prop :=
  (t ≠ r ∧ ∃ d : List UInt8, d.length < 2147483648 ∧ j = ⟨P.cw, P.fw, .write d⟩) ∨
  (t = r ∧ ∃ n : Nat, n < 2147483648 ∧ j = ⟨P.cr, P.fr, .read n⟩)

/-! ## Lemmas -/

/-- The writes of a sequence, with their threads, and the bytes that thread `r` was given. -/
def pieces (r : Nat) (l : List (Nat × Job × Out)) : List (Nat × List UInt8) := (l.filter (fun x => x.1 != r)).map (fun x => (x.1, x.2.1.call.data))
def given (r : Nat) (l : List (Nat × Job × Out)) : List UInt8 := ((ofThread r l).map (fun x => x.2.2.data)).flatten

theorem in_order {P : Plan} {r pos : Nat} {D : List UInt8} {l : List (Nat × Job × Out)} : ∀ {s s' : State} {x : Conf}, x.s = s → InOrder s l s' →
    Ok P D pos x → (∀ y, y ∈ l → Asks P r y.1 y.2.1) →
    ∃ y, y.s = s' ∧ Ok P D pos y ∧ y.sent = x.sent ++ (pieces r l).map Prod.snd ∧ y.got = x.got ++ given r l := by
  induction l with
  | nil => intro s s' x hx h ok _; cases h; exact ⟨x, hx, ok, by simp [pieces], by simp [given, ofThread]⟩
  | cons e l ih =>
    obtain ⟨t, j, o⟩ := e
    intro s s' x hx h ok ha
    subst hx
    obtain ⟨h1, h2⟩ := h
    have ha' := fun y hy => ha y (List.mem_cons_of_mem _ hy)
    rcases ha (t, j, o) (List.mem_cons_self ..) with ⟨ht, d, hd, hj⟩ | ⟨ht, n, hn, hj⟩ <;> dsimp only at ht hj <;> subst hj <;>
      simp only [Call.op] at h1 h2
    · obtain ⟨y, y1, y2, y3, y4⟩ := ih (x := next P x (.put d)) rfl h2 (ok.put hd).1 ha'
      refine ⟨y, y1, y2, ?_, ?_⟩
      · rw [y3]; simp [next, pieces, ht, Call.data]
      · rw [y4]; simp [next, given, ofThread, ht]
    · obtain ⟨y, y1, y2, y3, y4⟩ := ih (x := next P x (.get n)) rfl h2 (ok.get hn).1 ha'
      subst ht
      refine ⟨y, y1, y2, ?_, ?_⟩
      · rw [y3]; simp [next, pieces]
      · rw [y4]; simp [next, given, ofThread, h1]

/-! ## Theorems -/

/-- C110.  **Threads of the writer write records through its descriptor while the follower reads, in any schedule.**  The records are put one after the
other, whole, those of each thread in the order in which it wrote them, a record whose write has returned is among them, and all that the follower was given so far is, without loss or repetition, what
comes after its starting point in the log.  When nobody is calling, the file is the log as it was and all records. -/
theorem follow_threads {P : Plan} {pos r : Nat} {s : State} (h : Start P pos ⟨s, [], []⟩) (as : List Act)
    (hj : ∀ t j, Act.start t j ∈ as → Asks P r t j) :
    ∃ recs : List (Nat × List UInt8),
      (∀ x, x ∈ recs → x.1 ≠ r) ∧
      (∀ t, t ≠ r → (answersOf t (trace (rest s) as)).length ≤ (recs.filter (fun x => x.1 == t)).length) ∧
      (∀ t, t ≠ r → (recs.filter (fun x => x.1 == t)).map Prod.snd <+: (callsOf t (trace (rest s) as)).map (fun j => j.call.data)) ∧
      ((answersOf r (trace (rest s) as)).map Out.data).flatten <+: (bytes s P.i ++ (recs.map Prod.snd).flatten).drop pos ∧
      (AtRest (run (rest s) as) → bytes (run (rest s) as).s P.i = bytes s P.i ++ (recs.map Prod.snd).flatten ∧
        ∀ t, t ≠ r → (recs.filter (fun x => x.1 == t)).map Prod.snd = (callsOf t (trace (rest s) as)).map (fun j => j.call.data)) := by
  obtain ⟨B, h1, h2⟩ := linearizable s as
  obtain ⟨l, h3, h4⟩ := h1.order
  simp only [Abs.waiting, Abs.ready, List.nil_append] at h4
  have hl : ∀ y, y ∈ l → Asks P r y.1 y.2.1 := by
    intro y hy
    refine hj _ _ (trace_call (C := rest s) (mem_calls.1 ?_))
    rw [(h4 y.1).1]
    exact List.mem_append_left _ (List.mem_map.2 ⟨y, by simp [ofThread, hy], rfl⟩)
  obtain ⟨y, y1, y2, y3, y4⟩ := in_order (x := ⟨s, [], []⟩) rfl h3 h.ok hl
  simp only [List.nil_append] at y3 y4
  have hfil : ∀ t, t ≠ r → ((pieces r l).filter (fun x => x.1 == t)).map Prod.snd = (ofThread t l).map (fun x => x.2.1.call.data) := by
    intro t ht
    simp only [pieces, List.filter_map, List.map_map, ofThread, List.filter_filter, Function.comp_def]
    congr 1
    refine List.filter_congr (fun x _ => ?_)
    by_cases e : x.1 = t
    · simp [e, ht]
    · simp [e]
  refine ⟨pieces r l, ?_, ?_, ?_, ?_, ?_⟩
  · intro x hx
    simp only [pieces, List.mem_map, List.mem_filter] at hx
    obtain ⟨z, ⟨-, hz⟩, rfl⟩ := hx
    simpa using hz
  · intro t ht
    have e1 := congrArg List.length (hfil t ht)
    have e2 := congrArg List.length (h4 t).2
    simp only [List.length_map, List.length_append] at e1 e2
    omega
  · intro t ht
    rw [hfil t ht, (h4 t).1, List.map_append, List.map_map]
    exact List.prefix_append _ _
  · have hg : ((answersOf r (trace (rest s) as)).map Out.data).flatten <+: given r l := by
      have := congrArg (fun z => (z.map Out.data).flatten) (h4 r).2
      simp only [List.map_append, List.map_map, List.flatten_append, Function.comp_def] at this
      simp only [given]
      rw [this]
      exact List.prefix_append _ _
    refine hg.trans ?_
    rw [← y3, ← y2.all, ← y4, y2.got]
    exact List.take_prefix _ _
  · intro hr
    obtain ⟨h5, h6⟩ := h2 hr
    constructor
    · have hb : bytes (run (rest s) as).s P.i = bytes B.s P.i := by
        have := congrArg File.disk (h5.file P.i)
        simp only [DataConc.file] at this
        simp only [bytes, this]
      rw [hb, ← y1, y2.all, y3]
    · intro t ht
      rw [hfil t ht, (h4 t).1, h6 t]
      simp [Function.comp_def]

/-- Two threads of the writer put a record each while the follower, thread 2, reads twice; the calls are cut after every lock. -/
def busy : List Act :=
  [.start 0 ⟨0, 3, .write [66, 10]⟩, .go 0, .start 1 ⟨0, 3, .write [67, 68, 10]⟩, .start 2 ⟨1, 3, .read 8⟩, .go 2, .go 1] ++
    (List.replicate 30 [Act.go 2, Act.go 0, Act.go 1]).flatten ++ [.start 2 ⟨1, 3, .read 8⟩] ++ List.replicate 12 (Act.go 2)

theorem busy_asks : ∀ t j, Act.start t j ∈ busy → Asks plan 2 t j := by
  intro t j h
  simp only [busy, List.mem_append, List.mem_cons, List.not_mem_nil, or_false, Act.start.injEq, reduceCtorEq, false_or, or_assoc] at h
  rcases h with ⟨rfl, rfl⟩ | ⟨rfl, rfl⟩ | ⟨rfl, rfl⟩ | h | ⟨rfl, rfl⟩ | h
  · exact .inl ⟨by decide, _, by decide, rfl⟩
  · exact .inl ⟨by decide, _, by decide, rfl⟩
  · exact .inr ⟨rfl, 8, by decide, rfl⟩
  · exfalso
    revert h; simp
  · exact .inr ⟨rfl, 8, by decide, rfl⟩
  · exfalso
    revert h; simp

/-- The theorem applies to it; all four calls are answered and the follower has the whole log. -/
example : (∃ recs : List (Nat × List UInt8), ((answersOf 2 (trace (rest ready) busy)).map Out.data).flatten <+:
      (bytes ready 9 ++ (recs.map Prod.snd).flatten).drop 0) ∧
    (trace (rest ready) busy).length = 8 ∧ bytes (DataConc.run (rest ready) busy).s 9 = [65, 10, 66, 10, 67, 68, 10] ∧
    ((answersOf 2 (trace (rest ready) busy)).map Out.data).flatten = [65, 10, 66, 10, 67, 68, 10] := by
  obtain ⟨recs, -, -, -, h, -⟩ := follow_threads (P := plan) (r := 2) ready_start busy busy_asks
  exact ⟨⟨recs, h⟩, by decide +kernel, by decide +kernel, by decide +kernel⟩

end Verif.Follow
