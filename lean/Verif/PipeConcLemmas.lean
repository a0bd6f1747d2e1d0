import Verif.PipeConc
import Verif.PipeLemmas

/-!
# Lemmas for vectored writes by several threads
-/

namespace Verif.PipeConc
open Verif.Pipe (Sys Writer Reader pageSize cancelInterval pipeCapacity)

/-- A `read_from_pipe` or `write_to_pipe` that ended. -/
def Ev.call? : Ev → Option Pipe.Ev
  | .io _ e => some e
  | .vecDone .. => none

theorem stepWriter_some {s : Sys} {t : Writer} {s' : Sys} {e : Pipe.Ev} (h : Pipe.stepWriter s t = (s', some e)) :
    ∃ pushed ret, e = .wrote t.tid t.data t.nb pushed ret ∧ s'.wr = none := by
  simp only [Pipe.stepWriter] at h
  grind

theorem stepWriter_none {s : Sys} {t : Writer} {s' : Sys} (h : Pipe.stepWriter s t = (s', none)) :
    ∃ t', s'.wr = some t' ∧ t'.tid = t.tid ∧ t'.data = t.data ∧ t'.nb = t.nb := by
  simp only [Pipe.stepWriter] at h
  grind

/-- What is known of a vectored write on its way. -/
structure Vec.Ok (v : Vec) : Prop where
  len : v.put.length ≤ v.iovs.length
  rest : v.rest = v.iovs.drop v.put.length
  tot : v.tot = v.put.flatten.length
  pre : ∀ i, (h : i < v.put.length) → v.put[i] <+: v.iovs[i]
  all : v.nb = false → v.put = v.iovs.take v.put.length

/-- Invariant of the vectored writes. -/
structure Inv (s : St) : Prop where
  sys : Pipe.Inv s.sys
  ins : ∀ tid v, s.vec tid = some v → v.inside = true →
    ∃ t, s.sys.wr = some t ∧ t.tid = tid ∧ v.rest.head? = some t.data ∧ t.nb = v.nb
  wr : ∀ t v, s.sys.wr = some t → s.vec t.tid = some v → v.inside = true
  vec : ∀ tid v, s.vec tid = some v → v.Ok

/-- What a vectored write that ended has done and answered. -/
def VecSound (iovs : List (List UInt8)) (nb : Bool) (put : List (List UInt8)) (ret : Ret) : Prop :=
  put.length ≤ iovs.length ∧ (∀ i (h : i < put.length) (h' : i < iovs.length), put[i] <+: iovs[i]) ∧
    ((ret = .ok put.flatten.length ∧ (nb = false → put = iovs)) ∨
     (ret = .err .EAGAIN ∧ put.flatten = [] ∧ nb = true) ∨ ret = .err .EPIPE)

theorem after_ok {v : Vec} (hv : v.Ok) {data : List UInt8} (hd : v.rest.head? = some data) {pushed : Nat} {ret : Ret}
    (hp : pushed ≤ data.length)
    (hr : ret = .ok pushed ∧ (v.nb = false → pushed = data.length) ∨ ret = .err .EAGAIN ∧ pushed = 0 ∧ v.nb = true ∨
      ret = .err .EPIPE) :
    ((v.after (data.take pushed) ret).2 = none → (v.after (data.take pushed) ret).1.Ok ∧
      (v.after (data.take pushed) ret).1.inside = false) ∧
    (∀ r, (v.after (data.take pushed) ret).2 = some r →
      VecSound v.iovs v.nb (v.after (data.take pushed) ret).1.put r) ∧
    (v.after (data.take pushed) ret).1.put = v.put ++ [data.take pushed] := by
  have hrest := hv.rest
  have hlt : v.put.length < v.iovs.length := by
    rcases Nat.lt_or_ge v.put.length v.iovs.length with h | h
    · exact h
    · rw [hrest, List.drop_eq_nil_of_le h] at hd; cases hd
  have hdata : v.iovs[v.put.length] = data := by
    rw [hrest, List.head?_drop, List.getElem?_eq_getElem hlt] at hd
    exact Option.some.inj hd
  have hpre : ∀ i (h : i < (v.put ++ [data.take pushed]).length) (h' : i < v.iovs.length),
      (v.put ++ [data.take pushed])[i] <+: v.iovs[i] := by
    intro i h h'
    rw [List.getElem_append]
    split
    · rename_i hi; exact hv.pre i hi
    · rename_i hi
      have : i = v.put.length := by simp at h; omega
      subst this
      simp only [Nat.sub_self, List.getElem_cons_zero, hdata]
      exact List.take_prefix _ _
  have hfl : (v.put ++ [data.take pushed]).flatten.length = v.put.flatten.length + pushed := by
    simp [List.length_take, Nat.min_eq_left hp]
  rcases hr with ⟨rfl, hall⟩ | ⟨rfl, rfl, hnb⟩ | rfl
  · refine ⟨fun _ => ⟨⟨?_, ?_, ?_, ?_, ?_⟩, rfl⟩, ?_, rfl⟩
    · simp only [Vec.after, List.length_append, List.length_singleton]; exact hlt
    · simp only [Vec.after, hrest, List.drop_drop, List.length_append, List.length_singleton]
    · simp only [Vec.after, hfl, hv.tot]; rfl
    · intro i h; exact hpre i h (by simp [Vec.after] at h; omega)
    · intro hnb
      simp only [Vec.after, List.length_append, List.length_singleton]
      rw [List.take_add_one, ← hv.all hnb, List.getElem?_eq_getElem hlt, hdata, hall hnb]
      simp
    · intro r h; simp [Vec.after] at h
  · refine ⟨fun h => by simp [Vec.after] at h, ?_, rfl⟩
    intro r h
    have e : r = (if v.tot = 0 then .err .EAGAIN else .ok v.tot) := by simp only [Vec.after, Option.some.injEq] at h; exact h.symm
    have hf0 : (v.put ++ [data.take 0]).flatten = v.put.flatten := by simp
    refine ⟨?_, ?_, ?_⟩
    · simp only [Vec.after, List.length_append, List.length_singleton]; exact hlt
    · intro i h h'; exact hpre i h h'
    · simp only [Vec.after, hf0]
      subst e
      by_cases h0 : v.tot = 0
      · right; left
        rw [if_pos h0]
        exact ⟨rfl, List.length_eq_zero_iff.1 (by rw [← hv.tot]; exact h0), hnb⟩
      · left
        rw [if_neg h0, hv.tot]
        exact ⟨rfl, fun h => by rw [hnb] at h; cases h⟩
  · refine ⟨fun h => by simp [Vec.after] at h, ?_, rfl⟩
    intro r h
    have e : r = .err .EPIPE := by simp only [Vec.after, Option.some.injEq] at h; exact h.symm
    refine ⟨?_, ?_, .inr (.inr e)⟩
    · simp only [Vec.after, List.length_append, List.length_singleton]; exact hlt
    · intro i h h'; exact hpre i h h'

/-- Dropping or replacing the record of a thread that is not in `write_to_pipe` any more. -/
theorem Inv.piece {s : St} (h : Inv s) {sys : Sys} (hs : Pipe.Inv sys) (hw : sys.wr = none) {tid : Nat}
    (ho : ∀ u, u ≠ tid → ∀ v, s.vec u = some v → v.inside = false) (o : Option Vec)
    (hv : ∀ v, o = some v → v.Ok ∧ v.inside = false) : Inv { sys := sys, vec := updK s.vec tid o } := by
  refine ⟨hs, ?_, ?_, ?_⟩
  · intro u v hu hi
    simp only [updK_apply] at hu
    split at hu
    · rw [(hv v hu).2] at hi; cases hi
    · rename_i hne
      rw [ho u hne v hu] at hi; cases hi
  · intro t v ht; rw [hw] at ht; cases ht
  · intro u v hu
    simp only [updK_apply] at hu
    split at hu
    · exact (hv v hu).1
    · exact h.vec u v hu

theorem pieceDone_inv {s : St} (h : Inv s) {sys : Sys} (hs : Pipe.Inv sys) (hw : sys.wr = none) {tid : Nat}
    (ho : ∀ u, u ≠ tid → ∀ v, s.vec u = some v → v.inside = false) {v : Vec} (hv : s.vec tid = some v)
    {data : List UInt8} (hd : v.rest.head? = some data) {pushed : Nat} {ret : Ret} (e : Pipe.Ev)
    (hp : pushed ≤ data.length)
    (hr : ret = .ok pushed ∧ (v.nb = false → pushed = data.length) ∨ ret = .err .EAGAIN ∧ pushed = 0 ∧ v.nb = true ∨
      ret = .err .EPIPE) :
    Inv (pieceDone s sys tid v e (data.take pushed) ret).1 ∧
    (∀ u iovs nb put r, Ev.vecDone u iovs nb put r ∈ (pieceDone s sys tid v e (data.take pushed) ret).2 →
      VecSound iovs nb put r) := by
  obtain ⟨h1, h2, _⟩ := after_ok (h.vec tid v hv) hd hp hr
  unfold pieceDone
  rcases hx : v.after (data.take pushed) ret with ⟨v1, o⟩
  rw [hx] at h1 h2
  cases o with
  | none =>
    refine ⟨h.piece hs hw ho _ (fun w hw => ?_), ?_⟩
    · cases hw; exact h1 rfl
    · intro u iovs nb put r hm; simp at hm
  | some r1 =>
    refine ⟨h.piece hs hw ho _ (fun w hw => by cases hw), ?_⟩
    intro u iovs nb put r hm
    simp only [List.mem_cons, reduceCtorEq, List.not_mem_nil, or_false, false_or, Ev.vecDone.injEq] at hm
    obtain ⟨_, rfl, rfl, rfl, rfl⟩ := hm
    exact h2 _ rfl

/-- Nobody but the thread in `write_to_pipe` is marked as inside. -/
theorem Inv.others {s : St} (h : Inv s) {t : Writer} (ht : s.sys.wr = some t) :
    ∀ u, u ≠ t.tid → ∀ v, s.vec u = some v → v.inside = false := by
  intro u hu v hv
  cases hi : v.inside with
  | false => rfl
  | true =>
    obtain ⟨t', ht', he, _⟩ := h.ins u v hv hi
    rw [ht] at ht'; cases ht'
    exact absurd he.symm hu

theorem Inv.nobody {s : St} (h : Inv s) (ht : s.sys.wr = none) : ∀ u v, s.vec u = some v → v.inside = false := by
  intro u v hv
  cases hi : v.inside with
  | false => rfl
  | true => obtain ⟨t', ht', _⟩ := h.ins u v hv hi; rw [ht] at ht'; cases ht'

/-- Steps that leave the thread in `write_to_pipe` where it is. -/
theorem Inv.same {s : St} (h : Inv s) {sys : Sys} (hs : Pipe.Inv sys) (hw : sys.wr = s.sys.wr) : Inv { s with sys := sys } :=
  ⟨hs, fun u v hu hi => by rw [hw]; exact h.ins u v hu hi, fun t v ht hv => h.wr t v (by rw [← hw]; exact ht) hv, h.vec⟩

theorem stepBase_inv {s : St} (h : Inv s) {a : Pipe.Act} (hw : (Pipe.step s.sys a).1.wr = s.sys.wr) :
    Inv (stepBase s a).1 ∧ ∀ u iovs nb put r, Ev.vecDone u iovs nb put r ∉ (stepBase s a).2 := by
  refine ⟨h.same (Pipe.inv_step _ _ h.sys) hw, ?_⟩
  intro u iovs nb put r hm
  simp [stepBase] at hm

theorem step_inv {s : St} (h : Inv s) (a : Act) :
    Inv (step s a).1 ∧ ∀ u iovs nb put r, Ev.vecDone u iovs nb put r ∈ (step s a).2 → VecSound iovs nb put r := by
  have nothing : Inv s ∧ ∀ u iovs nb put r, Ev.vecDone u iovs nb put r ∈ ([] : List Ev) → VecSound iovs nb put r :=
    ⟨h, fun _ _ _ _ _ hm => by cases hm⟩
  have base : ∀ a, (Pipe.step s.sys a).1.wr = s.sys.wr →
      Inv (stepBase s a).1 ∧ ∀ u iovs nb put r, Ev.vecDone u iovs nb put r ∈ (stepBase s a).2 → VecSound iovs nb put r :=
    fun a hw => ⟨(stepBase_inv h hw).1, fun u i n p r hm => absurd hm ((stepBase_inv h hw).2 u i n p r)⟩
  cases a with
  | base a =>
    cases a with
    | writeStep =>
      simp only [step, stepWrite]
      have hs := Pipe.inv_step s.sys .writeStep h.sys
      have hcons := Pipe.consistent_step s.sys .writeStep h.sys
      rcases hx : Pipe.step s.sys .writeStep with ⟨sys, e⟩
      rw [hx] at hs hcons
      simp only [Pipe.step] at hx
      cases ht : s.sys.wr with
      | none =>
        rw [ht] at hx; cases hx
        refine ⟨h.same hs rfl, fun u iovs nb put r hm => ?_⟩
        simp at hm
      | some t =>
        rw [ht] at hx
        cases e with
        | none =>
          obtain ⟨t', hw', e1, e2, e3⟩ := stepWriter_none hx
          refine ⟨⟨hs, ?_, ?_, h.vec⟩, fun u iovs nb put r hm => by simp at hm⟩
          · intro u v hu hi
            obtain ⟨t'', ht'', f1, f2, f3⟩ := h.ins u v hu hi
            rw [ht] at ht''; cases ht''
            exact ⟨t', hw', e1.trans f1, by rw [e2]; exact f2, e3.trans f3⟩
          · intro t'' v ht'' hv
            rw [show sys.wr = some t' from hw'] at ht''; cases ht''
            exact h.wr t v ht (by rw [← e1]; exact hv)
        | some ev =>
          obtain ⟨pushed, ret, rfl, hw'⟩ := stepWriter_some hx
          have hc := hcons _ rfl
          cases hv : s.vec t.tid with
          | none =>
            dsimp only
            rw [hv]
            refine ⟨⟨hs, ?_, ?_, h.vec⟩, fun u iovs nb put r hm => by simp at hm⟩
            · intro u v hu hi
              by_cases e : u = t.tid
              · subst e; rw [hv] at hu; cases hu
              · rw [h.others ht u e v hu] at hi; cases hi
            · intro t' v ht'; rw [show sys.wr = none from hw'] at ht'; cases ht'
          | some v =>
            obtain ⟨t', ht', e1, e2, e3⟩ := h.ins _ v hv (h.wr t v ht hv)
            rw [ht] at ht'; cases ht'
            dsimp only
            rw [hv]
            refine pieceDone_inv h hs hw' (h.others ht) hv e2 _ hc.1 ?_
            rcases hc.2 with ⟨r1, r2, _⟩ | ⟨r1, r2, r3⟩ | r1
            · exact .inl ⟨r1, fun hn => r2 (by rw [e3]; exact hn)⟩
            · exact .inr (.inl ⟨r1, r2, by rw [← e3]; exact r3⟩)
            · exact .inr (.inr r1)
    | beginWrite tid data nb =>
      simp only [step]
      split
      · rename_i hn
        by_cases h0 : data.length = 0
        · exact base _ (by simp only [Pipe.step, if_pos h0])
        · cases ht : s.sys.wr with
          | some t => exact base _ (by simp only [Pipe.step, if_neg h0, ht])
          | none =>
            have hst : Pipe.step s.sys (.beginWrite tid data nb) =
                ({ s.sys with wr := some { tid, data, nb, w := 0, phase := .ref } }, none) := by
              simp only [Pipe.step, if_neg h0, ht]
            have hs := Pipe.inv_step s.sys (.beginWrite tid data nb) h.sys
            simp only [stepBase, hst] at hs ⊢
            refine ⟨⟨hs, ?_, ?_, h.vec⟩, fun u iovs nb put r hm => by simp at hm⟩
            · intro u v hu hi; rw [h.nobody ht u v hu] at hi; cases hi
            · intro t v ht' hv
              cases ht'
              rw [show s.vec tid = none from hn] at hv; cases hv
      · exact nothing
    | beginRead tid n nb =>
      simp only [step]
      split
      · refine base _ ?_
        simp only [Pipe.step]
        (repeat' split) <;> rfl
      · exact nothing
    | readStep =>
      refine base _ ?_
      simp only [Pipe.step, Pipe.stepReader]
      (repeat' split) <;> rfl
    | incr e => exact base _ rfl
    | decr e => exact base _ rfl
  | beginV tid iovs nb =>
    simp only [step]
    split
    · rename_i hc
      refine ⟨⟨h.sys, ?_, ?_, ?_⟩, fun u iovs nb put r hm => by cases hm⟩
      · intro u v hu hi
        simp only [updK_apply] at hu
        split at hu
        · cases hu; cases hi
        · exact h.ins u v hu hi
      · intro t v ht hv
        simp only [updK_apply] at hv
        split at hv
        · rename_i e; exact absurd e (hc.2 t ht)
        · exact h.wr t v ht hv
      · intro u v hu
        simp only [updK_apply] at hu
        split at hu
        · cases hu
          exact ⟨Nat.zero_le _, rfl, rfl, fun i hi => absurd hi (Nat.not_lt_zero i), fun _ => rfl⟩
        · exact h.vec u v hu
    · exact nothing
  | nextV tid =>
    simp only [step]
    cases hv : s.vec tid with
    | none => exact nothing
    | some v =>
      have hok := h.vec tid v hv
      dsimp only
      split
      · exact nothing
      · rename_i hin
        have hin : v.inside = false := by simpa using hin
        split
        · rename_i hr
          refine ⟨⟨h.sys, ?_, ?_, ?_⟩, ?_⟩
          · intro u w hu hi
            simp only [updK_apply] at hu
            split at hu
            · cases hu
            · exact h.ins u w hu hi
          · intro t w ht hw
            simp only [updK_apply] at hw
            split at hw
            · cases hw
            · exact h.wr t w ht hw
          · intro u w hu
            simp only [updK_apply] at hu
            split at hu
            · cases hu
            · exact h.vec u w hu
          · intro u iovs nb put r hm
            simp only [List.mem_cons, List.not_mem_nil, or_false, Ev.vecDone.injEq] at hm
            obtain ⟨_, rfl, rfl, rfl, rfl⟩ := hm
            have hall : v.iovs.length ≤ v.put.length := by
              have := hok.rest.symm.trans hr
              simpa using this
            refine ⟨hok.len, fun i hi h' => hok.pre i hi, .inl ⟨by rw [hok.tot], fun hn => ?_⟩⟩
            rw [hok.all hn, List.take_of_length_le hall]
        · rename_i rest hr
          have hd : v.rest.head? = some [] := by rw [hr]; rfl
          obtain ⟨h1, h2, _⟩ := after_ok hok hd (Nat.zero_le _) (ret := .ok (0 : Nat))
            (.inl ⟨rfl, fun _ => rfl⟩)
          have hx : v.after (([] : List UInt8).take 0) (.ok (0 : Nat)) = v.after [] (.ok 0) := rfl
          have hx2 : (v.after [] (.ok 0)).2 = none := rfl
          rw [hx] at h1
          obtain ⟨h1a, h1b⟩ := h1 hx2
          simp only [pieceDone]
          rcases hy : v.after [] (.ok 0) with ⟨v1, o⟩
          rw [hy] at hx2 h1a h1b
          simp only at hx2 h1a h1b
          subst hx2
          refine ⟨⟨h.sys, ?_, ?_, ?_⟩, fun u iovs nb put r hm => by simp at hm⟩
          · intro u w hu hi
            simp only [updK_apply] at hu
            split at hu
            · cases hu; rw [h1b] at hi; cases hi
            · exact h.ins u w hu hi
          · intro t w ht hw
            simp only [updK_apply] at hw
            split at hw
            · rename_i e
              have := h.wr t v ht (by rw [e]; exact hv)
              rw [hin] at this; cases this
            · exact h.wr t w ht hw
          · intro u w hu
            simp only [updK_apply] at hu
            split at hu
            · cases hu; exact h1a
            · exact h.vec u w hu
        · rename_i b bs rest hr
          split
          · exact nothing
          · rename_i ht
            have hst : Pipe.step s.sys (.beginWrite tid (b :: bs) v.nb) =
                ({ s.sys with wr := some { tid, data := b :: bs, nb := v.nb, w := 0, phase := .ref } }, none) := by
              simp [Pipe.step, ht]
            have hs := Pipe.inv_step s.sys (.beginWrite tid (b :: bs) v.nb) h.sys
            rw [hst] at hs ⊢
            refine ⟨⟨hs, ?_, ?_, ?_⟩, fun u iovs nb put r hm => by cases hm⟩
            · intro u w hu hi
              simp only [updK_apply] at hu
              split at hu
              · rename_i e
                cases hu
                exact ⟨_, rfl, e.symm, by rw [hr]; rfl, rfl⟩
              · rw [h.nobody ht u w hu] at hi; cases hi
            · intro t w ht' hw
              cases ht'
              simp only [updK_apply, if_true] at hw
              cases hw; rfl
            · intro u w hu
              simp only [updK_apply] at hu
              split at hu
              · cases hu
                exact ⟨hok.len, hok.rest, hok.tot, hok.pre, hok.all⟩
              · exact h.vec u w hu

theorem inv_init (cap : Nat) : Inv (St.init cap) :=
  ⟨Pipe.inv_init cap, fun _ _ h => (nomatch h), fun _ _ h => (nomatch h), fun _ _ h => (nomatch h)⟩

theorem run_inv : ∀ (as : List Act) {s : St}, Inv s →
    Inv (run s as).1 ∧ ∀ u iovs nb put r, Ev.vecDone u iovs nb put r ∈ (run s as).2 → VecSound iovs nb put r
  | [], _, h => ⟨h, fun _ _ _ _ _ hm => by cases hm⟩
  | a :: as, s, h => by
    obtain ⟨h1, h2⟩ := step_inv h a
    obtain ⟨h3, h4⟩ := run_inv as h1
    refine ⟨h3, fun u iovs nb put r hm => ?_⟩
    simp only [run, List.mem_append] at hm
    rcases hm with hm | hm
    · exact h2 u iovs nb put r hm
    · exact h4 u iovs nb put r hm

/-! ## Bytes -/

/-- A step here is a step of `Pipe`, or moves no bytes. -/
theorem step_sys (s : St) (a : Act) :
    (∃ b, (step s a).1.sys = (Pipe.step s.sys b).1 ∧ (step s a).2.filterMap Ev.call? = (Pipe.step s.sys b).2.toList) ∨
    ((step s a).1.sys = s.sys ∧ ∀ e ∈ (step s a).2.filterMap Ev.call?, e.accepted = [] ∧ e.delivered = []) := by
  have base : ∀ a, (∃ b, (stepBase s a).1.sys = (Pipe.step s.sys b).1 ∧
      (stepBase s a).2.filterMap Ev.call? = (Pipe.step s.sys b).2.toList) := by
    intro a
    refine ⟨a, rfl, ?_⟩
    cases h : (Pipe.step s.sys a).2 <;> simp [stepBase, h, Ev.call?]
  have piece : ∀ sys tid v e bytes r, (pieceDone s sys tid v e bytes r).1.sys = sys ∧
      (pieceDone s sys tid v e bytes r).2.filterMap Ev.call? = [e] := by
    intro sys tid v e bytes r
    unfold pieceDone
    split <;> simp [Ev.call?]
  have nothing : s.sys = s.sys ∧ ∀ e ∈ ([] : List Ev).filterMap Ev.call?, e.accepted = [] ∧ e.delivered = [] :=
    ⟨rfl, fun e he => by cases he⟩
  cases a with
  | base a =>
    cases a with
    | writeStep =>
      left
      refine ⟨.writeStep, ?_⟩
      simp only [step, stepWrite]
      rcases hx : Pipe.step s.sys .writeStep with ⟨sys, e⟩
      dsimp only
      split
      · rename_i he
        cases he
        split
        · exact ⟨(piece _ _ _ _ _ _).1, (piece _ _ _ _ _ _).2⟩
        · simp [Ev.call?]
      · rename_i he
        cases he
        cases e <;> simp [Ev.call?]
    | beginWrite tid data nb =>
      simp only [step]; split
      · exact .inl (base _)
      · exact .inr nothing
    | beginRead tid n nb =>
      simp only [step]; split
      · exact .inl (base _)
      · exact .inr nothing
    | readStep => exact .inl (base _)
    | incr e => exact .inl (base _)
    | decr e => exact .inl (base _)
  | beginV tid iovs nb =>
    right
    simp only [step]; split
    · exact ⟨rfl, fun e he => by cases he⟩
    · exact nothing
  | nextV tid =>
    simp only [step]
    split
    · exact .inr nothing
    · rename_i v hv
      split
      · exact .inr nothing
      · split
        · exact .inr ⟨rfl, fun e he => by simp [Ev.call?] at he⟩
        · right
          refine ⟨(piece _ _ _ _ _ _).1, ?_⟩
          rw [(piece _ _ _ _ _ _).2]
          intro e he
          simp only [List.mem_cons, List.not_mem_nil, or_false] at he
          subst he
          exact ⟨rfl, rfl⟩
        · rename_i b bs rest hr
          split
          · exact .inr nothing
          · rename_i ht
            left
            refine ⟨.beginWrite tid (b :: bs) v.nb, rfl, ?_⟩
            simp [Pipe.step, ht]

theorem fifo_run (as : List Act) : ∀ (s : St) (D A : List UInt8), Inv s →
    D ++ s.sys.p.buf = A ++ s.sys.inProgress →
    (D ++ (((run s as).2.filterMap Ev.call?).map Pipe.Ev.delivered).flatten) ++ (run s as).1.sys.p.buf =
    (A ++ (((run s as).2.filterMap Ev.call?).map Pipe.Ev.accepted).flatten) ++ (run s as).1.sys.inProgress := by
  induction as with
  | nil => intro s D A _ h; simpa [run] using h
  | cons a as ih =>
    intro s D A hi h
    simp only [run, List.filterMap_append, List.map_append, List.flatten_append, ← List.append_assoc]
    refine ih _ _ _ (step_inv hi a).1 ?_
    rcases step_sys s a with ⟨b, h1, h2⟩ | ⟨h1, h2⟩
    · rw [h1, h2]; exact Pipe.fifo_step s.sys b hi.sys D A h
    · have hA : ∀ l : List Pipe.Ev, (∀ e ∈ l, e.accepted = [] ∧ e.delivered = []) →
          (l.map Pipe.Ev.delivered).flatten = [] ∧ (l.map Pipe.Ev.accepted).flatten = [] := by
        intro l hl
        simp only [List.flatten_eq_nil_iff, List.mem_map]
        exact ⟨fun x ⟨e, he, hx⟩ => hx ▸ (hl e he).2, fun x ⟨e, he, hx⟩ => hx ▸ (hl e he).1⟩
      rw [h1, (hA _ h2).1, (hA _ h2).2, List.append_nil, List.append_nil]
      exact h

/-- What the pieces of vectored writes of thread `tid` put into the pipe. -/
def pieces (tid : Nat) : Ev → List UInt8
  | .io true (.wrote u data _ pushed _) => if u = tid then data.take pushed else []
  | _ => []

/-- What a vectored write of thread `tid` that ended says it has put into the pipe. -/
def claimed (tid : Nat) : Ev → List UInt8
  | .vecDone u _ _ put _ => if u = tid then put.flatten else []
  | _ => []

/-- What the vectored write of `tid` that has not ended has put into the pipe with the buffers it is done with. -/
def St.soFar (s : St) (tid : Nat) : List UInt8 := ((s.vec tid).map (fun v => v.put.flatten)).getD []

theorem own_step (s : St) (a : Act) (tid : Nat) :
    s.soFar tid ++ (((step s a).2).map (pieces tid)).flatten =
    (((step s a).2).map (claimed tid)).flatten ++ (step s a).1.soFar tid := by
  have base : ∀ a, s.soFar tid ++ (((stepBase s a).2).map (pieces tid)).flatten =
      (((stepBase s a).2).map (claimed tid)).flatten ++ (stepBase s a).1.soFar tid := by
    intro a
    simp only [stepBase]
    cases (Pipe.step s.sys a).2 <;> simp [pieces, claimed, St.soFar]
  have piece : ∀ sys u v data nb pushed r, s.vec u = some v →
      s.soFar tid ++ (((pieceDone s sys u v (.wrote u data nb pushed r) (data.take pushed) r).2).map (pieces tid)).flatten =
      (((pieceDone s sys u v (.wrote u data nb pushed r) (data.take pushed) r).2).map (claimed tid)).flatten ++
        (pieceDone s sys u v (.wrote u data nb pushed r) (data.take pushed) r).1.soFar tid := by
    intro sys u v data nb pushed r hv
    have hput : (v.after (data.take pushed) r).1.put = v.put ++ [data.take pushed] := by
      unfold Vec.after; (repeat' split) <;> rfl
    unfold pieceDone
    rcases hx : v.after (data.take pushed) r with ⟨v1, o⟩
    rw [hx] at hput
    dsimp only at hput
    by_cases e : u = tid
    · subst e
      cases o <;> simp [pieces, claimed, St.soFar, hv, hput]
    · cases o <;> simp [pieces, claimed, St.soFar, e, Ne.symm e]
  have nothing : s.soFar tid ++ (([] : List Ev).map (pieces tid)).flatten =
    (([] : List Ev).map (claimed tid)).flatten ++ s.soFar tid := by simp
  cases a with
  | base a =>
    cases a with
    | writeStep =>
      simp only [step, stepWrite]
      rcases hx : Pipe.step s.sys .writeStep with ⟨sys, e⟩
      split
      · split
        · exact piece _ _ _ _ _ _ _ ‹_›
        · simp [pieces, claimed, St.soFar]
      · rename_i he
        cases he
        cases e <;> simp [pieces, claimed, St.soFar]
    | beginWrite tid data nb =>
      simp only [step]; split
      · exact base _
      · exact nothing
    | beginRead tid n nb =>
      simp only [step]; split
      · exact base _
      · exact nothing
    | readStep => exact base _
    | incr e => exact base _
    | decr e => exact base _
  | beginV u iovs nb =>
    simp only [step]; split
    · rename_i hc
      by_cases e : u = tid
      · subst e; simp [St.soFar, hc.1]
      · simp [St.soFar, Ne.symm e]
    · exact nothing
  | nextV u =>
    simp only [step]
    split
    · exact nothing
    · rename_i v hv
      split
      · exact nothing
      · split
        · by_cases e : u = tid
          · subst e; simp [St.soFar, hv, pieces, claimed]
          · simp [St.soFar, Ne.symm e, e, pieces, claimed]
        · exact piece s.sys u v [] v.nb 0 (.ok 0) hv
        · split
          · exact nothing
          · by_cases e : u = tid
            · subst e; simp [St.soFar, hv]
            · simp [St.soFar, Ne.symm e]

theorem own_run (tid : Nat) : ∀ (as : List Act) {s : St}, Inv s →
    s.soFar tid ++ (((run s as).2).map (pieces tid)).flatten =
    (((run s as).2).map (claimed tid)).flatten ++ (run s as).1.soFar tid
  | [], s, _ => by simp [run]
  | a :: as, s, h => by
    have h1 := own_step s a tid
    have h2 := own_run tid as (step_inv h a).1
    simp only [run, List.map_append, List.flatten_append]
    rw [← List.append_assoc, h1, List.append_assoc, h2, List.append_assoc]

/-! ## Progress -/

/-- How many of its steps the non-blocking write still takes at most. -/
def wLeft (t : Writer) : Nat :=
  match t.phase with
  | .ref => 3 * (t.data.length - t.w) + 1
  | .rem => 3 * (t.data.length - t.w)
  | .push _ => 3 * (t.data.length - t.w) - 1

theorem wLeft_le (t : Writer) : wLeft t ≤ 3 * t.data.length + 1 := by
  unfold wLeft; split <;> omega

theorem write_step {s : Sys} (hi : Pipe.Inv s) {t : Writer} (ht : s.wr = some t) (hnb : t.nb = true) :
    (∃ pushed ret, (Pipe.step s .writeStep).2 = some (.wrote t.tid t.data true pushed ret)) ∨
    ∃ t', (Pipe.step s .writeStep).1.wr = some t' ∧ t'.tid = t.tid ∧ t'.data = t.data ∧ t'.nb = true ∧ wLeft t' < wLeft t := by
  have h1 := hi.wLe t ht
  have h2 := hi.pushRem t
  have h3 := hi.remLt t ht
  simp only [Pipe.step, ht, Pipe.stepWriter]
  cases hp : t.phase with
  | ref =>
    by_cases c : t.w < t.data.length
    · simp only [if_pos c]
      by_cases c' : s.p.rref = 0
      · simp [if_pos c', hnb]
      · right; simp only [if_neg c']
        exact ⟨_, rfl, rfl, rfl, hnb, by simp only [wLeft, hp]; omega⟩
    · simp [if_neg c, hnb]
  | rem =>
    have := h3 hp
    by_cases c : s.p.remaining < pageSize
    · left
      simp only [if_pos c, hnb, if_true]
      split <;> simp
    · right; simp only [if_neg c]
      exact ⟨_, rfl, rfl, rfl, hnb, by simp only [wLeft, hp]; omega⟩
  | push r =>
    right
    obtain ⟨_, g2, g3⟩ := h2 r ht hp
    have : 0 < r := Nat.lt_of_lt_of_le (by decide : 0 < pageSize) g3
    exact ⟨_, rfl, rfl, rfl, hnb, by simp only [wLeft, hp]; omega⟩

theorem wr_stays {s : Sys} {t : Writer} (ht : s.wr = some t) {a : Pipe.Act} (ha : a ≠ .writeStep) : (Pipe.step s a).1.wr = some t := by
  cases a with
  | writeStep => exact absurd rfl ha
  | beginWrite tid data nb => simp only [Pipe.step, ht]; split <;> exact ht
  | beginRead tid n nb => simp only [Pipe.step]; (repeat' split) <;> exact ht
  | readStep => simp only [Pipe.step, Pipe.stepReader]; (repeat' split) <;> exact ht
  | incr e => exact ht
  | decr e => exact ht

theorem nb_write_run : ∀ (as : List Pipe.Act) {s : Sys}, Pipe.Inv s → ∀ {t : Writer}, s.wr = some t → t.nb = true →
    wLeft t ≤ as.count .writeStep → ∃ pushed ret, Pipe.Ev.wrote t.tid t.data true pushed ret ∈ (Pipe.run s as).2
  | [], s, hi, t, ht, hnb, hc => by
    have h1 := hi.wLe t ht
    have h3 := hi.remLt t ht
    have h2 := hi.pushRem t
    simp only [List.count_nil, Nat.le_zero_eq, wLeft] at hc
    cases hp : t.phase with
    | ref => rw [hp] at hc; simp only at hc; omega
    | rem => have := h3 hp; rw [hp] at hc; simp only at hc; omega
    | push r => have := (h2 r ht hp).2.1; rw [hp] at hc; simp only at hc; omega
  | a :: as, s, hi, t, ht, hnb, hc => by
    simp only [Pipe.run]
    by_cases ha : a = .writeStep
    · subst ha
      rw [List.count_cons_self] at hc
      rcases write_step hi ht hnb with ⟨pushed, ret, h⟩ | ⟨t', h1, h2, h3, h4, h5⟩
      · exact ⟨pushed, ret, List.mem_append_left _ (by rw [h]; simp)⟩
      · obtain ⟨pushed, ret, h⟩ := nb_write_run as (Pipe.inv_step s _ hi) h1 h4 (by omega)
        rw [h2, h3] at h
        exact ⟨pushed, ret, List.mem_append_right _ h⟩
    · rw [List.count_cons_of_ne ha] at hc
      obtain ⟨pushed, ret, h⟩ := nb_write_run as (Pipe.inv_step s _ hi) (wr_stays ht ha) hnb hc
      exact ⟨pushed, ret, List.mem_append_right _ h⟩

/-- Where a reader can be. -/
def RInv (s : Sys) : Prop := ∀ t, s.rd = some t →
  match t.phase with
  | .first => t.count = 0
  | .nbRef => t.nb = true
  | .loopRef => t.nb = false ∧ t.count ≤ cancelInterval
  | .loopLen => t.nb = false ∧ t.count < cancelInterval
  | .pop _ => True

/-- How many of its steps the reader still takes at most. -/
def rLeft (t : Reader) : Nat :=
  match t.phase with
  | .first => if t.nb then 2 else 2 * cancelInterval + 3
  | .nbRef => 1
  | .loopRef => 2 * (cancelInterval - t.count) + 2
  | .loopLen => 2 * (cancelInterval - t.count) + 1
  | .pop _ => 1

theorem read_step {s : Sys} (hi : RInv s) {t : Reader} (ht : s.rd = some t) :
    (∃ ret bytes, (Pipe.step s .readStep).2 = some (.read t.tid t.n t.nb ret bytes) ∧ (Pipe.step s .readStep).1.rd = none) ∨
    ∃ t', (Pipe.step s .readStep).1.rd = some t' ∧ t'.tid = t.tid ∧ t'.n = t.n ∧ t'.nb = t.nb ∧ rLeft t' < rLeft t ∧
      RInv (Pipe.step s .readStep).1 := by
  have h1 := hi t ht
  generalize hC : cancelInterval = C
  have hC0 : 0 < C := by rw [← hC]; decide
  simp only [Pipe.step, ht, Pipe.stepReader, hC]
  cases hp : t.phase with
  | first =>
    rw [hp] at h1
    by_cases c : s.p.buf.length = 0
    · by_cases n : t.nb = true
      · right
        simp only [if_pos c, if_pos n]
        refine ⟨_, rfl, rfl, rfl, rfl, by simp only [rLeft, hp, if_pos n]; omega, fun u hu => ?_⟩
        cases hu; exact n
      · right
        simp only [if_pos c, if_neg n]
        refine ⟨_, rfl, rfl, rfl, rfl, by simp only [rLeft, hp, if_neg n, hC]; omega, fun u hu => ?_⟩
        cases hu
        refine ⟨by simpa using n, ?_⟩
        show t.count ≤ cancelInterval
        rw [h1]; omega
    · right
      simp only [if_neg c]
      refine ⟨_, rfl, rfl, rfl, rfl, by simp only [rLeft, hp, hC]; split <;> omega, fun u hu => ?_⟩
      cases hu; trivial
  | nbRef =>
    left
    dsimp only
    split <;> exact ⟨_, _, rfl, rfl⟩
  | loopRef =>
    rw [hp] at h1
    dsimp only
    split
    · exact .inl ⟨_, _, rfl, rfl⟩
    · split
      · exact .inl ⟨_, _, rfl, rfl⟩
      · right
        refine ⟨_, rfl, rfl, rfl, rfl, by simp only [rLeft, hp]; omega, fun u hu => ?_⟩
        cases hu
        have := h1.2
        exact ⟨h1.1, by show t.count < cancelInterval; omega⟩
  | loopLen =>
    rw [hp] at h1
    have := h1.2
    right
    dsimp only
    split
    · refine ⟨_, rfl, rfl, rfl, rfl, by simp only [rLeft, hp]; omega, fun u hu => ?_⟩
      cases hu
      exact ⟨h1.1, by show t.count + 1 ≤ cancelInterval; omega⟩
    · refine ⟨_, rfl, rfl, rfl, rfl, by simp only [rLeft, hp]; omega, fun u hu => ?_⟩
      cases hu; trivial
  | pop sp => exact .inl ⟨_, _, rfl, rfl⟩

theorem rd_stays {s : Sys} {t : Reader} (ht : s.rd = some t) {a : Pipe.Act} (ha : a ≠ .readStep) : (Pipe.step s a).1.rd = some t := by
  cases a with
  | readStep => exact absurd rfl ha
  | beginWrite tid data nb => simp only [Pipe.step]; (repeat' split) <;> exact ht
  | beginRead tid n nb => simp only [Pipe.step, ht]; split <;> exact ht
  | writeStep => simp only [Pipe.step, Pipe.stepWriter]; (repeat' split) <;> exact ht
  | incr e => exact ht
  | decr e => exact ht

theorem RInv.step {s : Sys} (h : RInv s) (a : Pipe.Act) : RInv (Pipe.step s a).1 := by
  cases ht : s.rd with
  | some t =>
    by_cases ha : a = .readStep
    · subst ha
      rcases read_step h ht with ⟨_, _, _, h2⟩ | ⟨t', _, _, _, _, _, h2⟩
      · intro u hu; rw [h2] at hu; cases hu
      · exact h2
    · intro u hu
      rw [rd_stays ht ha] at hu
      cases hu
      exact h t ht
  | none =>
    have none_ : ∀ s' : Sys, s'.rd = none → RInv s' := fun s' e u hu => by rw [e] at hu; cases hu
    cases a with
    | readStep => simp only [Pipe.step, ht]; exact h
    | beginWrite tid data nb => simp only [Pipe.step]; (repeat' split) <;> exact none_ _ ht
    | beginRead tid n nb =>
      simp only [Pipe.step, ht]
      split
      · exact h
      · intro u hu; cases hu; rfl
    | writeStep => simp only [Pipe.step, Pipe.stepWriter]; (repeat' split) <;> exact none_ _ ht
    | incr e => exact none_ _ ht
    | decr e => exact none_ _ ht

theorem RInv.run : ∀ (as : List Pipe.Act) {s : Sys}, RInv s → RInv (Pipe.run s as).1
  | [], _, h => h
  | a :: as, _, h => by simpa [Pipe.run] using RInv.run as (h.step a)

theorem rinv_init (cap : Nat) : RInv (Sys.init cap) := fun u hu => by cases hu

theorem read_run : ∀ (as : List Pipe.Act) {s : Sys}, RInv s → ∀ {t : Reader}, s.rd = some t →
    rLeft t ≤ as.count .readStep → ∃ ret bytes, Pipe.Ev.read t.tid t.n t.nb ret bytes ∈ (Pipe.run s as).2
  | [], s, hi, t, ht, hc => by
    simp only [List.count_nil, Nat.le_zero_eq, rLeft] at hc
    cases hp : t.phase <;> rw [hp] at hc <;> simp only at hc <;> try omega
    split at hc <;> omega
  | a :: as, s, hi, t, ht, hc => by
    simp only [Pipe.run]
    by_cases ha : a = .readStep
    · subst ha
      rw [List.count_cons_self] at hc
      rcases read_step hi ht with ⟨ret, bytes, h, _⟩ | ⟨t', h1, h2, h3, h4, h5, h6⟩
      · exact ⟨ret, bytes, List.mem_append_left _ (by rw [h]; simp)⟩
      · obtain ⟨ret, bytes, h⟩ := read_run as h6 h1 (by omega)
        rw [h2, h3, h4] at h
        exact ⟨ret, bytes, List.mem_append_right _ h⟩
    · rw [List.count_cons_of_ne ha] at hc
      obtain ⟨ret, bytes, h⟩ := read_run as (hi.step a) (rd_stays ht ha) hc
      exact ⟨ret, bytes, List.mem_append_right _ h⟩

/-- A writer waits for room. -/
def Stuck (s : Sys) : Prop := ∃ t, s.wr = some t ∧ t.nb = false ∧ t.w < t.data.length ∧
  (t.phase = .ref ∨ t.phase = .rem) ∧ s.p.remaining < pageSize ∧ s.p.rref ≠ 0

theorem Stuck.step {s : Sys} (h : Stuck s) {a : Pipe.Act} (h1 : a ≠ .readStep) (h2 : a ≠ .decr .read) :
    Stuck (Pipe.step s a).1 ∧ ∀ e, (Pipe.step s a).2 = some e →
      ∀ tid data nb pushed ret, e = .wrote tid data nb pushed ret → data = [] := by
  obtain ⟨t, g1, g2, g3, g4, g5, g6⟩ := h
  cases a with
  | readStep => exact absurd rfl h1
  | writeStep =>
    simp only [Pipe.step, g1, Pipe.stepWriter]
    rcases g4 with g4 | g4
    · simp only [g4, if_pos g3, if_neg g6]
      exact ⟨⟨_, rfl, g2, g3, .inr rfl, g5, g6⟩, fun e he => by cases he⟩
    · simp only [g4, if_pos g5, g2, Bool.false_eq_true, if_false]
      exact ⟨⟨_, rfl, rfl, g3, .inl rfl, g5, g6⟩, fun e he => by cases he⟩
  | beginWrite tid data nb =>
    simp only [Pipe.step, g1]
    split
    · rename_i h0
      refine ⟨⟨t, g1, g2, g3, g4, g5, g6⟩, fun e he tid data nb pushed ret hh => ?_⟩
      cases he; cases hh
      exact List.length_eq_zero_iff.1 h0
    · exact ⟨⟨t, g1, g2, g3, g4, g5, g6⟩, fun e he => by cases he⟩
  | beginRead tid n nb =>
    simp only [Pipe.step]
    split
    · exact ⟨⟨t, g1, g2, g3, g4, g5, g6⟩, fun e he tid data nb pushed ret hh => by cases he; cases hh⟩
    · split
      · exact ⟨⟨t, g1, g2, g3, g4, g5, g6⟩, fun e he => by cases he⟩
      · exact ⟨⟨t, g1, g2, g3, g4, g5, g6⟩, fun e he => by cases he⟩
  | incr e =>
    refine ⟨⟨t, g1, g2, g3, g4, ?_, ?_⟩, fun e he => by cases he⟩
    · cases e <;> exact g5
    · cases e
      · exact Nat.succ_ne_zero _
      · exact g6
  | decr e =>
    cases e with
    | read => exact absurd rfl h2
    | write => exact ⟨⟨t, g1, g2, g3, g4, g5, g6⟩, fun e he => by cases he⟩

theorem Stuck.run : ∀ (as : List Pipe.Act) {s : Sys}, Stuck s → (∀ a ∈ as, a ≠ .readStep ∧ a ≠ .decr .read) →
    Stuck (Pipe.run s as).1 ∧ ∀ tid data nb pushed ret, Pipe.Ev.wrote tid data nb pushed ret ∈ (Pipe.run s as).2 → data = []
  | [], s, h, _ => ⟨h, fun _ _ _ _ _ hm => by cases hm⟩
  | a :: as, s, h, hno => by
    obtain ⟨h1, h2⟩ := h.step (hno a (List.mem_cons_self ..)).1 (hno a (List.mem_cons_self ..)).2
    obtain ⟨h3, h4⟩ := Stuck.run as h1 (fun b hb => hno b (List.mem_cons_of_mem _ hb))
    refine ⟨h3, fun tid data nb pushed ret hm => ?_⟩
    simp only [Pipe.run, List.mem_append, Option.mem_toList] at hm
    rcases hm with hm | hm
    · exact h2 _ hm _ _ _ _ _ rfl
    · exact h4 _ _ _ _ _ hm

theorem cap_run : ∀ (as : List Pipe.Act) (s : Sys), (Pipe.run s as).1.p.cap = s.p.cap
  | [], _ => rfl
  | a :: as, s => by
    simp only [Pipe.run]
    rw [cap_run as]
    cases a <;> simp only [Pipe.step, Pipe.stepWriter, Pipe.stepReader] <;> (repeat' split) <;> simp

theorem read_three {s : Sys} {u : Reader} (hu : s.rd = some u) (hb : s.p.buf ≠ []) :
    ∃ ret bytes, Pipe.Ev.read u.tid u.n u.nb ret bytes ∈ (Pipe.run s [.readStep, .readStep, .readStep]).2 := by
  have hb' : ¬ s.p.buf.length = 0 := fun h => hb (List.length_eq_zero_iff.1 h)
  cases hp : u.phase with
  | first => simp [Pipe.run, Pipe.step, Pipe.stepReader, hu, hp, hb]
  | nbRef => by_cases c : s.p.wref = 0 <;> simp [Pipe.run, Pipe.step, Pipe.stepReader, hu, hp, c]
  | loopRef =>
    by_cases c : s.p.wref = 0
    · simp [Pipe.run, Pipe.step, Pipe.stepReader, hu, hp, c]
    · by_cases c' : u.count = cancelInterval
      · simp [Pipe.run, Pipe.step, Pipe.stepReader, hu, hp, c, c']
      · simp [Pipe.run, Pipe.step, Pipe.stepReader, hu, hp, c, c', hb]
  | loopLen => simp [Pipe.run, Pipe.step, Pipe.stepReader, hu, hp, hb]
  | pop sp => simp [Pipe.run, Pipe.step, Pipe.stepReader, hu, hp]

theorem write_three {s : Sys} (hi : Pipe.Inv s) (hcap : pageSize ≤ s.p.cap) {t : Writer} (ht : s.wr = some t) (hb : s.p.buf = []) :
    (∃ pushed ret, Pipe.Ev.wrote t.tid t.data t.nb pushed ret ∈ (Pipe.run s [.writeStep, .writeStep, .writeStep]).2) ∨
      (Pipe.run s [.writeStep, .writeStep, .writeStep]).1.p.buf ≠ [] := by
  have h1 := hi.wLe t ht
  have h2 := hi.pushRem t
  have h3 := hi.remLt t ht
  have grow : ∀ (r : Nat) (s' : Sys) (t' : Writer), s'.wr = some t' → t'.phase = .push r → t'.w < t'.data.length → 0 < r →
      (Pipe.step s' .writeStep).1.p.buf ≠ [] := by
    intro r s' t' e1 e2 e3 e4
    simp only [Pipe.step, e1, Pipe.stepWriter, e2, ne_eq, List.append_eq_nil_iff, not_and]
    intro _ h
    have := congrArg List.length h
    simp [List.length_drop, List.length_take] at this
    omega
  have keep : ∀ s' : Sys, s'.p.buf ≠ [] → (Pipe.step s' .writeStep).1.p.buf ≠ [] := by
    intro s' h
    simp only [Pipe.step, Pipe.stepWriter]
    (repeat' split) <;> first | exact h | (simp only [ne_eq, List.append_eq_nil_iff, not_and]; intro h'; exact absurd h' h)
  have hrun : (Pipe.run s [.writeStep, .writeStep, .writeStep]).1 =
      (Pipe.step (Pipe.step (Pipe.step s .writeStep).1 .writeStep).1 .writeStep).1 := by simp [Pipe.run]
  have hrem : ¬ s.p.remaining < pageSize := by simp [Pipe.Pipe.remaining, hb]; exact hcap
  have hps : 0 < s.p.remaining := Nat.lt_of_lt_of_le (by decide : 0 < pageSize) (Nat.le_of_not_lt hrem)
  cases hp : t.phase with
  | ref =>
    by_cases c : t.w < t.data.length
    · by_cases c' : s.p.rref = 0
      · left; simp [Pipe.run, Pipe.step, Pipe.stepWriter, ht, hp, c, c']
      · right
        rw [hrun]
        refine grow s.p.remaining _ { t with phase := .push s.p.remaining } ?_ rfl c hps
        simp only [Pipe.step, ht, Pipe.stepWriter, hp, if_pos c, if_neg c', if_neg hrem]
    · left; simp [Pipe.run, Pipe.step, Pipe.stepWriter, ht, hp, c]
  | rem =>
    right
    rw [hrun]
    refine keep _ (grow s.p.remaining _ { t with phase := .push s.p.remaining } ?_ rfl (h3 hp) hps)
    simp only [Pipe.step, ht, Pipe.stepWriter, hp, if_neg hrem]
  | push r =>
    right
    obtain ⟨_, g2, g3⟩ := h2 r ht hp
    rw [hrun]
    exact keep _ (keep _ (grow r _ t ht hp g2 (Nat.lt_of_lt_of_le (by decide : 0 < pageSize) g3)))

/-! ## A run with a hole -/

/-- Only thread 1 writes vectored. -/
def one (sys : Sys) (o : Option Vec) : St := { sys := sys, vec := fun t => if t = 1 then o else none }

theorem one_upd (sys sys' : Sys) (o o' : Option Vec) : ({ sys := sys', vec := updK (one sys o).vec 1 o' } : St) = one sys' o' := by
  simp only [one, St.mk.injEq, true_and]
  funext t
  simp only [updK_apply]
  split <;> rfl

theorem run_cons {s : St} {a : Act} {as : List Act} {s1 s2 : St} {e e2 : List Ev} (h : step s a = (s1, e))
   (h2 : run s1 as = (s2, e2)) : run s (a :: as) = (s2, e ++ e2) := by simp only [run, h, h2]

theorem hole_run (d : List UInt8) (h : d.length = 65537) : ∃ s es, run (St.init pipeCapacity)
  [.beginV 1 [d, [7]] true, .nextV 1, .base .writeStep, .base .writeStep, .base .writeStep, .base .writeStep,
   .base .writeStep, .base (.beginRead 2 65536 false), .base .readStep, .base .readStep,
   .nextV 1, .base .writeStep, .base .writeStep, .base .writeStep, .base .writeStep, .nextV 1] = (s, es ++
     [.vecDone 1 [d, [7]] true [d.take 65536, [7]] (.ok 65537)]) := by
  obtain ⟨x, xs, hd⟩ : ∃ x xs, d = x :: xs := by cases d with | nil => cases h | cons x xs => exact ⟨x, xs, rfl⟩
  let v : Vec := ⟨[d, [7]], true, [d, [7]], false, 0, []⟩
  let v' : Vec := ⟨[d, [7]], true, [[7]], false, 65536, [d.take 65536]⟩
  let S : List UInt8 → Option Writer → Option Reader → Sys := fun b w r => ⟨⟨b, 65536, 1, 1⟩, w, r⟩
  have s1 : step (St.init pipeCapacity) (.beginV 1 [d, [7]] true) = (one (S [] none none) (some v), []) := by
    have : St.init pipeCapacity = one (S [] none none) none := by
      simp [St.init, one, S, Sys.init, Pipe.Pipe.new, pipeCapacity]
    rw [this]
    simp only [step]
    rw [if_pos ⟨by simp [one], by simp [one, S]⟩]
    exact congrArg (·, []) (one_upd _ _ _ _)
  have s2 : step (one (S [] none none) (some v)) (.nextV 1) = (one (S [] (some ⟨1, d, true, 0, .ref⟩) none) (some { v with inside := true }), []) := by
    have hv : (one (S [] none none) (some v)).vec 1 = some v := by simp [one]
    simp only [step, hv]
    subst hd
    simp only [v, Bool.false_eq_true, if_false]
    exact congrArg (·, []) (one_upd _ _ _ _)
  have s3 : step (one (S [] (some ⟨1, d, true, 0, .ref⟩) none) (some { v with inside := true })) (.base .writeStep) =
      (one (S [] (some ⟨1, d, true, 0, .rem⟩) none) (some { v with inside := true }), []) := by
    simp [step, stepWrite, one, S, Pipe.step, Pipe.stepWriter, h]
  have s4 : step (one (S [] (some ⟨1, d, true, 0, .rem⟩) none) (some { v with inside := true })) (.base .writeStep) =
      (one (S [] (some ⟨1, d, true, 0, .push 65536⟩) none) (some { v with inside := true }), []) := by
    simp [step, stepWrite, one, S, Pipe.step, Pipe.stepWriter, Pipe.Pipe.remaining, pageSize]
  have s5 : step (one (S [] (some ⟨1, d, true, 0, .push 65536⟩) none) (some { v with inside := true })) (.base .writeStep) =
      (one (S (d.take 65536) (some ⟨1, d, true, 65536, .ref⟩) none) (some { v with inside := true }), []) := by
    simp [step, stepWrite, one, S, Pipe.step, Pipe.stepWriter, h]
  have s6 : step (one (S (d.take 65536) (some ⟨1, d, true, 65536, .ref⟩) none) (some { v with inside := true })) (.base .writeStep) =
      (one (S (d.take 65536) (some ⟨1, d, true, 65536, .rem⟩) none) (some { v with inside := true }), []) := by
    simp [step, stepWrite, one, S, Pipe.step, Pipe.stepWriter, h]
  have s7 : step (one (S (d.take 65536) (some ⟨1, d, true, 65536, .rem⟩) none) (some { v with inside := true })) (.base .writeStep) =
      (one (S (d.take 65536) none none) (some v'), [.io true (.wrote 1 d true 65536 (.ok 65536))]) := by
    have hx : Pipe.step (S (d.take 65536) (some ⟨1, d, true, 65536, .rem⟩) none) .writeStep =
       (S (d.take 65536) none none, some (.wrote 1 d true 65536 (.ok 65536))) := by
      simp [S, Pipe.step, Pipe.stepWriter, Pipe.Pipe.remaining, pageSize, h]
    simp only [step, stepWrite]
    have : (one (S (d.take 65536) (some ⟨1, d, true, 65536, .rem⟩) none) (some { v with inside := true })).sys = S (d.take 65536) (some ⟨1, d, true, 65536, .rem⟩) none := rfl
    rw [this, hx]
    simp only [show (one (S (d.take 65536) (some ⟨1, d, true, 65536, .rem⟩) none) (some { v with inside := true })).vec 1 = some { v with inside := true } from rfl]
    simp only [pieceDone, Vec.after, v, List.drop_succ_cons, List.drop_zero, List.nil_append]
    exact congrArg (·, _) (one_upd _ _ _ _)
  have s8 : step (one (S (d.take 65536) none none) (some v')) (.base (.beginRead 2 65536 false)) =
     (one (S (d.take 65536) none (some ⟨2, 65536, false, 0, .first⟩)) (some v'), []) := by
    simp [step, stepBase, one, S, Pipe.step]
  have s9 : step (one (S (d.take 65536) none (some ⟨2, 65536, false, 0, .first⟩)) (some v')) (.base .readStep) =
     (one (S (d.take 65536) none (some ⟨2, 65536, false, 0, .pop 65536⟩)) (some v'), []) := by
    simp [step, stepBase, one, S, Pipe.step, Pipe.stepReader, h]
  have s10 : step (one (S (d.take 65536) none (some ⟨2, 65536, false, 0, .pop 65536⟩)) (some v')) (.base .readStep) =
     (one (S [] none none) (some v'), [.io false (.read 2 65536 false (.ok 65536) (d.take 65536))]) := by
    simp [step, stepBase, one, S, Pipe.step, Pipe.stepReader, List.take_take]
  have s11 : step (one (S [] none none) (some v')) (.nextV 1) = (one (S [] (some ⟨1, [7], true, 0, .ref⟩) none) (some { v' with inside := true }), []) := by
    have hv : (one (S [] none none) (some v')).vec 1 = some v' := by simp [one]
    simp only [step, hv]
    simp only [v', Bool.false_eq_true, if_false]
    exact congrArg (·, []) (one_upd _ _ _ _)
  have s12 : step (one (S [] (some ⟨1, [7], true, 0, .ref⟩) none) (some { v' with inside := true })) (.base .writeStep) =
      (one (S [] (some ⟨1, [7], true, 0, .rem⟩) none) (some { v' with inside := true }), []) := by
    simp [step, stepWrite, one, S, Pipe.step, Pipe.stepWriter]
  have s13 : step (one (S [] (some ⟨1, [7], true, 0, .rem⟩) none) (some { v' with inside := true })) (.base .writeStep) =
      (one (S [] (some ⟨1, [7], true, 0, .push 65536⟩) none) (some { v' with inside := true }), []) := by
    simp [step, stepWrite, one, S, Pipe.step, Pipe.stepWriter, Pipe.Pipe.remaining, pageSize]
  have s14 : step (one (S [] (some ⟨1, [7], true, 0, .push 65536⟩) none) (some { v' with inside := true })) (.base .writeStep) =
      (one (S [7] (some ⟨1, [7], true, 1, .ref⟩) none) (some { v' with inside := true }), []) := by
    simp [step, stepWrite, one, S, Pipe.step, Pipe.stepWriter]
  have s15 : step (one (S [7] (some ⟨1, [7], true, 1, .ref⟩) none) (some { v' with inside := true })) (.base .writeStep) =
      (one (S [7] none none) (some ⟨[d, [7]], true, [], false, 65537, [d.take 65536, [7]]⟩), [.io true (.wrote 1 [7] true 1 (.ok 1))]) := by
    have hx : Pipe.step (S [7] (some ⟨1, [7], true, 1, .ref⟩) none) .writeStep =
       (S [7] none none, some (.wrote 1 [7] true 1 (.ok 1))) := by
      simp [S, Pipe.step, Pipe.stepWriter]
    simp only [step, stepWrite]
    have : (one (S [7] (some ⟨1, [7], true, 1, .ref⟩) none) (some { v' with inside := true })).sys = S [7] (some ⟨1, [7], true, 1, .ref⟩) none := rfl
    rw [this, hx]
    simp only [show (one (S [7] (some ⟨1, [7], true, 1, .ref⟩) none) (some { v' with inside := true })).vec 1 = some { v' with inside := true } from rfl]
    simp only [pieceDone, Vec.after, v', List.drop_succ_cons, List.drop_zero]
    exact congrArg (·, _) (one_upd _ _ _ _)
  have s16 : step (one (S [7] none none) (some ⟨[d, [7]], true, [], false, 65537, [d.take 65536, [7]]⟩)) (.nextV 1) =
    (one (S [7] none none) none, [.vecDone 1 [d, [7]] true [d.take 65536, [7]] (.ok 65537)]) := by
    have hv : (one (S [7] none none) (some ⟨[d, [7]], true, [], false, 65537, [d.take 65536, [7]]⟩)).vec 1 = some ⟨[d, [7]], true, [], false, 65537, [d.take 65536, [7]]⟩ := by simp [one]
    simp only [step, hv]
    simp only [Bool.false_eq_true, if_false]
    exact congrArg (·, _) (one_upd _ _ _ _)
  have hr := run_cons s1 (run_cons s2 (run_cons s3 (run_cons s4 (run_cons s5 (run_cons s6 (run_cons s7 (run_cons s8
    (run_cons s9 (run_cons s10 (run_cons s11 (run_cons s12 (run_cons s13 (run_cons s14 (run_cons s15 (run_cons s16
      (as := []) rfl)))))))))))))))
  exact ⟨_, [.io true (.wrote 1 d true 65536 (.ok 65536)), .io false (.read 2 65536 false (.ok 65536) (d.take 65536)),
    .io true (.wrote 1 [7] true 1 (.ok 1))], hr⟩

end Verif.PipeConc
