import Verif.PipelineLemmas

/-!
# Lemmas for C99: the invariant
-/

namespace Verif.Pipeline
open Verif.Fs Verif.Kernel Verif.Path
open Verif.Pipe (Pipe pageSize)

def ph : Prod → List UInt8 | .has d => d | _ => []
def qh : Cons → List UInt8 | .has d => d | _ => []
def pw : Prod → Nat | .ready => 2 | .has d => 3 * d.length + 2 | .ended => 1 | .done => 0
def qw : Cons → Nat | .ready => 1 | .has d => d.length + 1 | .done => 0
def fin (p : Prod) : Nat := if p = .done then 1 else 0

structure Ok (P : Plan) (i j id : Nat) (fw f g fr : BitVec 32) (D : List UInt8) (x : Conf) (pos : Nat) (pp : Pipe) : Prop where
  reach : Reach x.s
  small : P.fo < 1024 ∧ P.gi < 1024
  ne : i ≠ j
  ofi : OpenOn x.s P.cp P.fi i pos f
  rf : f &&& 3#32 ≠ 1#32
  ri : IsFile x.s i D.length
  bi : bytes x.s i = D
  le : pos ≤ D.length
  ogo : OpenOn x.s P.cq P.go j (bytes x.s j).length g
  wg : g &&& 3#32 ≠ 0#32
  rj : IsFile x.s j (bytes x.s j).length
  out : x.p ≠ .done → slot x.s P.cp P.fo = some (.pipe id fw)
  wf : fw &&& 3#32 = 1#32
  inp : slot x.s P.cq P.gi = some (.pipe id fr)
  rr : fr &&& 3#32 = 0#32
  hp : x.s.pipes id = some pp
  pend : x.p = .ended ∨ x.p = .done → pos = D.length
  qdone : x.q = .done → x.p = .done ∧ pp.buf = []
  hq : (qh x.q).length < 2147483648
  hpn : (ph x.p).length ≤ 4096 ∨ fw &&& 0o4000#32 ≠ 0#32
  np : ∀ d, x.p = .has d → d ≠ []
  nq : ∀ d, x.q = .has d → d ≠ []
  sum : bytes x.s j ++ (qh x.q ++ (pp.buf ++ (ph x.p ++ D.drop pos))) = D

def Stuck (x : Conf) (pp : Pipe) : Move → Prop
  | .take _ => x.p ≠ .ready
  | .put => (∀ d, x.p ≠ .has d) ∨ pp.remaining < 4096
  | .shut => x.p ≠ .ended
  | .get _ => x.q ≠ .ready ∨ (pp.buf = [] ∧ pp.wref ≠ 0)
  | .store => ∀ d, x.q ≠ .has d
  | .other _ _ => True

section
variable {P : Plan} {i j id : Nat} {fw f g fr : BitVec 32} {D : List UInt8} {x : Conf} {pos : Nat} {pp : Pipe}

theorem Ok.todo (h : Ok P i j id fw f g fr D x pos pp) :
    todo P i id x = 4 * (D.length - pos) + pw x.p + 2 * pp.buf.length + qw x.q := by
  unfold Pipeline.todo
  rw [h.ofi.slot, h.hp, h.bi]
  cases x.p <;> cases x.q <;> rfl

theorem bytes_fs {s t : State} (h : t.fs = s.fs) (k : Nat) : bytes t k = bytes s k := by unfold bytes; rw [h]
theorem isFile_fs {s t : State} (h : t.fs = s.fs) {k n : Nat} (hf : IsFile s k n) : IsFile t k n := by
  unfold IsFile; rw [h]; exact hf

theorem tame_read (s : State) (c : Nat) (fd : Int) (n : Nat) : Tame s c (.read fd n) := by
  unfold Tame; split <;> trivial
theorem tame_write (s : State) (c : Nat) (fd : Int) (d : List UInt8) : Tame s c (.write fd d) := by
  unfold Tame; split <;> trivial
theorem tame_close (s : State) (c : Nat) (fd : Int) : Tame s c (.close fd) := by
  unfold Tame; split <;> trivial

/-- What a move keeps. -/
def Fine (P : Plan) (i j id : Nat) (fw f g fr : BitVec 32) (D : List UInt8) (x : Conf) (pp : Pipe) (m : Move) : Prop :=
  ∃ pos' pp', Ok P i j id fw f g fr D (next P x m) pos' pp' ∧
    (Own m → (Pipeline.todo P i id (next P x m) < Pipeline.todo P i id x ∨
        Stuck x pp m ∧ Pipeline.todo P i id (next P x m) = Pipeline.todo P i id x) ∧
      pp'.wref + fin (next P x m).p = pp.wref + fin x.p)

theorem Ok.same (h : Ok P i j id fw f g fr D x pos pp) {m : Move} (he : next P x m = x) (hs : Stuck x pp m) :
    Fine P i j id fw f g fr D x pp m := by
  refine ⟨pos, pp, by rw [he]; exact h, fun _ => ⟨.inr ⟨hs, by rw [he]⟩, by rw [he]⟩⟩

theorem Ok.take (h : Ok P i j id fw f g fr D x pos pp) (n : Nat) (h0 : 0 < n) (hn : n < 2147483648)
    (hb : n ≤ 4096 ∨ fw &&& 0o4000#32 ≠ 0#32) : Fine P i j id fw f g fr D x pp (.take n) := by
  cases hx : x.p with
  | ready =>
    have e := read_file h.reach h.ofi h.ri h.rf h.le hn
    obtain ⟨-, cg, hc, hd⟩ := h.ofi
    have hr : Reach (step x.s P.cp (.read P.fi n)).1 := Reach.step _ _ h.reach (tame_read _ _ _ _) (by rw [e]; simp)
    have hset := slot_set hc (fd := P.fi) (some (.file i (pos + min n (D.length - pos)) f))
    rw [e] at hr
    rw [h.bi] at e
    have hfs := setFd_fs x.s P.cp P.fi (some (.file i (pos + min n (D.length - pos)) f))
    have hps := set_pipes x.s P.cp P.fi (some (.file i (pos + min n (D.length - pos)) f))
    have hfi := h.ofi.slot
    have hgo := h.ogo.slot
    have hle := h.le
    have hsum := h.sum
    have htd := h.todo
    rw [hx] at htd hsum
    simp only [ph, List.nil_append] at hsum
    have key : ∀ (q' : Prod), (q' = .ended ∧ min n (D.length - pos) = 0 ∨ q' = .has ((D.drop pos).take n) ∧ min n (D.length - pos) ≠ 0) →
        next P x (.take n) = { x with s := x.s.setFd P.cp P.fi (some (.file i (pos + min n (D.length - pos)) f)), p := q' } →
        Fine P i j id fw f g fr D x pp (.take n) := by
      intro q' hq' he
      have hok : Ok P i j id fw f g fr D (next P x (.take n)) (pos + min n (D.length - pos)) pp := by
        rw [he]
        constructor
        · exact hr
        · exact h.small
        · exact h.ne
        · refine openOn_of_slot h.ofi.1 ?_
          dsimp only
          rw [hset, if_pos ⟨rfl, rfl⟩]
        · exact h.rf
        · exact isFile_fs hfs h.ri
        · rw [bytes_fs hfs]; exact h.bi
        · omega
        · refine openOn_of_slot h.ogo.1 ?_
          dsimp only
          rw [hset, if_neg, bytes_fs hfs, hgo]
          rintro ⟨a, b⟩
          rw [a, b, hfi] at hgo
          cases hgo; exact h.ne rfl
        · exact h.wg
        · dsimp only; rw [bytes_fs hfs]; exact isFile_fs hfs h.rj
        · intro _
          have ho := h.out (by rw [hx]; exact fun a => nomatch a)
          dsimp only
          rw [hset, if_neg, ho]
          rintro ⟨-, b⟩
          rw [b, hfi] at ho; cases ho
        · exact h.wf
        · have ho := h.inp
          dsimp only
          rw [hset, if_neg, ho]
          rintro ⟨a, b⟩
          rw [a, b, hfi] at ho; cases ho
        · exact h.rr
        · dsimp only; rw [hps]; exact h.hp
        · intro hq
          rcases hq' with ⟨a, b⟩ | ⟨a, b⟩
          · omega
          · subst a; rcases hq with hq | hq <;> cases hq
        · intro hq
          have := (h.qdone hq).1
          rw [hx] at this; cases this
        · exact h.hq
        · rcases hq' with ⟨a, b⟩ | ⟨a, b⟩
          · subst a; exact .inl (by simp [ph])
          · subst a
            rcases hb with hb | hb
            · left; simp only [ph, List.length_take]; omega
            · exact .inr hb
        · intro d hd'
          rcases hq' with ⟨a, b⟩ | ⟨a, b⟩
          · subst a; cases hd'
          · subst a; cases hd'
            intro hh
            have := congrArg List.length hh
            simp at this; omega
        · exact h.nq
        · dsimp only
          rw [bytes_fs hfs]
          rcases hq' with ⟨a, b⟩ | ⟨a, b⟩
          · subst a; rw [b]; simpa [ph] using hsum
          · subst a
            have : (D.drop pos).take n ++ D.drop (pos + min n (D.length - pos)) = D.drop pos := by
              have h1 : (D.drop pos).take n = (D.drop pos).take (min n (D.length - pos)) := by
                rw [List.take_eq_take_min, List.length_drop]
              rw [h1, ← List.drop_drop, List.take_append_drop]
            simp only [ph]
            rw [this]; exact hsum
      refine ⟨_, pp, hok, fun _ => ⟨.inl ?_, ?_⟩⟩
      · have htd' := hok.todo
        rw [htd', htd, he]
        rcases hq' with ⟨a, b⟩ | ⟨a, b⟩
        · subst a; simp only [pw]; omega
        · subst a; simp only [pw, List.length_take, List.length_drop]; omega
      · rw [he, hx]
        rcases hq' with ⟨a, b⟩ | ⟨a, b⟩ <;> subst a <;> simp [fin]
    by_cases hz : min n (D.length - pos) = 0
    · refine key .ended (.inl ⟨rfl, hz⟩) ?_
      simp only [next, hx, e]
      rw [if_pos (by omega)]
    · refine key (.has ((D.drop pos).take n)) (.inr ⟨rfl, hz⟩) ?_
      simp only [next, hx, e]
      rw [if_neg (by omega)]
  | has d => exact h.same (by simp only [next, hx]) (by simp only [Stuck, hx]; exact fun a => nomatch a)
  | ended => exact h.same (by simp only [next, hx]) (by simp only [Stuck, hx]; exact fun a => nomatch a)
  | done => exact h.same (by simp only [next, hx]) (by simp only [Stuck, hx]; exact fun a => nomatch a)

/-- Only the pipe has changed. -/
theorem Ok.pipeStep (h : Ok P i j id fw f g fr D x pos pp) {pp' : Pipe} {p' : Prod} {q' : Cons}
    (hr : Reach { x.s with pipes := upd x.s.pipes id (some pp') })
    (hout : p' ≠ .done → x.p ≠ .done)
    (pend : p' = .ended ∨ p' = .done → pos = D.length)
    (qdone : q' = .done → p' = .done ∧ pp'.buf = [])
    (hq : (qh q').length < 2147483648) (hpn : (ph p').length ≤ 4096 ∨ fw &&& 0o4000#32 ≠ 0#32)
    (np : ∀ d, p' = .has d → d ≠ []) (nq : ∀ d, q' = .has d → d ≠ [])
    (sum : qh q' ++ (pp'.buf ++ ph p') = qh x.q ++ (pp.buf ++ ph x.p)) :
    Ok P i j id fw f g fr D { s := { x.s with pipes := upd x.s.pipes id (some pp') }, p := p', q := q' } pos pp' := by
  refine ⟨hr, h.small, h.ne, h.ofi, h.rf, h.ri, h.bi, h.le, h.ogo, h.wg, h.rj, fun hd => h.out (hout hd), h.wf, h.inp, h.rr,
    by simp [upd], pend, qdone, hq, hpn, np, nq, ?_⟩
  have hs := h.sum
  have e1 : qh q' ++ (pp'.buf ++ (ph p' ++ D.drop pos)) = qh x.q ++ (pp.buf ++ (ph x.p ++ D.drop pos)) := by
    have := congrArg (· ++ D.drop pos) sum
    simpa [List.append_assoc] using this
  exact (congrArg (bytes x.s j ++ ·) e1).trans hs

theorem nb_eq (fw : BitVec 32) : (decide (fw &&& oNONBLOCK ≠ 0)) = true ↔ fw &&& 0o4000#32 ≠ 0#32 := by
  rw [decide_eq_true_iff]; exact Iff.rfl

theorem Ok.put (h : Ok P i j id fw f g fr D x pos pp) : Fine P i j id fw f g fr D x pp .put := by
  cases hx : x.p with
  | has d =>
    have ho := h.out (by rw [hx]; exact fun a => nomatch a)
    have e := write_pipe (data := d) h.small.1 ho h.wf h.hp
    have hnd := h.np d hx
    have hpn := h.hpn
    rw [hx] at hpn
    simp only [ph] at hpn
    have hq0 : x.q ≠ .done := fun hh => by have := (h.qdone hh).1; rw [hx] at this; cases this
    have htd := h.todo
    rw [hx] at htd
    rcases writeNow_cases pp d (decide (fw &&& oNONBLOCK ≠ 0)) (hpn.imp (fun a => a) (nb_eq fw).2) with ⟨v, w1, w2, w3, w4⟩ | ⟨w1, w2, w3, w4⟩
    · have w4 := w4 hnd
      have hr : Reach (step x.s P.cp (.write P.fo d)).1 := Reach.step _ _ h.reach (tame_write _ _ _ _) (by rw [e]; dsimp only; rw [w1]; simp)
      rw [e, w2] at hr
      have hrest : rest d (.ok (v : Nat)) = d.drop v := by simp [rest]
      by_cases hz : d.drop v = []
      · have hlen : v = d.length := by have := List.drop_eq_nil_iff.1 hz; omega
        have he : next P x .put = ⟨{ x.s with pipes := upd x.s.pipes id (some { pp with buf := pp.buf ++ d.take v }) },
          .ready, x.q⟩ := by
          simp only [next, hx, e, w1, hrest, if_pos hz, w2]
        have hok : Ok P i j id fw f g fr D (next P x .put) pos { pp with buf := pp.buf ++ d.take v } := by
          rw [he]
          refine h.pipeStep hr (fun _ a => by rw [hx] at a; cases a) (by rintro (a | a) <;> cases a) (fun a => absurd a hq0) h.hq
            (.inl (by simp [ph])) (fun _ a => by cases a) h.nq ?_
          rw [hx]; simp [ph, hlen]
        refine ⟨pos, _, hok, fun _ => ⟨.inl ?_, ?_⟩⟩
        · rw [hok.todo, htd, he]
          simp only [pw, List.length_append, List.length_take]; omega
        · rw [he, hx]; simp [fin]
      · have he : next P x .put = ⟨{ x.s with pipes := upd x.s.pipes id (some { pp with buf := pp.buf ++ d.take v }) },
          .has (d.drop v), x.q⟩ := by
          simp only [next, hx, e, w1, hrest, if_neg hz, w2]
        have hok : Ok P i j id fw f g fr D (next P x .put) pos { pp with buf := pp.buf ++ d.take v } := by
          rw [he]
          refine h.pipeStep hr (fun _ a => by rw [hx] at a; cases a) (by rintro (a | a) <;> cases a) (fun a => absurd a hq0) h.hq
            ?_ ?_ h.nq ?_
          · exact hpn.imp (fun a => by simp only [ph, List.length_drop]; omega) (fun a => a)
          · intro d' hd'; cases hd'; exact hz
          · rw [hx]; simp [ph]
        refine ⟨pos, _, hok, fun _ => ⟨.inl ?_, ?_⟩⟩
        · rw [hok.todo, htd, he]
          simp only [pw, List.length_append, List.length_take, List.length_drop]; omega
        · rw [he, hx]; simp [fin]
    · have hr : Reach (step x.s P.cp (.write P.fo d)).1 := Reach.step _ _ h.reach (tame_write _ _ _ _) (by rw [e]; exact w2)
      rw [e, w3] at hr
      have hrest : rest d (pp.writeNow d (decide (fw &&& oNONBLOCK ≠ 0))).2 = d := by
        cases hw : (pp.writeNow d (decide (fw &&& oNONBLOCK ≠ 0))).2 with
        | ok v => exact absurd hw (w1 v)
        | _ => rfl
      have he : next P x .put = ⟨{ x.s with pipes := upd x.s.pipes id (some pp) }, .has d, x.q⟩ := by
        simp only [next, hx, e, hrest, if_neg hnd, w3]
      have hok : Ok P i j id fw f g fr D (next P x .put) pos pp := by
        rw [he]
        refine h.pipeStep hr (fun _ a => by rw [hx] at a; cases a) (by rintro (a | a) <;> cases a) (fun a => absurd a hq0) h.hq
          hpn (fun d' hd' => by cases hd'; exact hnd) h.nq ?_
        rw [hx]
      refine ⟨pos, _, hok, fun _ => ⟨.inr ⟨.inr ?_, ?_⟩, ?_⟩⟩
      · rcases w4 with w4 | w4
        · obtain ⟨cg, hc, hd⟩ := slot_cage h.inp
          obtain ⟨p, a1, a2⟩ := h.reach.inv.alive hc hd
          rw [h.hp] at a1; cases a1
          rw [h.rr] at a2
          rcases a2 with ⟨-, a2⟩ | ⟨a2, -⟩
          · omega
          · exact absurd a2 (by decide)
        · exact w4
      · rw [hok.todo, htd, he]
      · rw [he, hx]
  | ready => exact h.same (by simp only [next, hx]) (.inl fun d => by rw [hx]; exact fun a => nomatch a)
  | ended => exact h.same (by simp only [next, hx]) (.inl fun d => by rw [hx]; exact fun a => nomatch a)
  | done => exact h.same (by simp only [next, hx]) (.inl fun d => by rw [hx]; exact fun a => nomatch a)

theorem Ok.get (h : Ok P i j id fw f g fr D x pos pp) (n : Nat) (h0 : 0 < n) (hn : n < 2147483648) :
    Fine P i j id fw f g fr D x pp (.get n) := by
  cases hx : x.q with
  | ready =>
    have e := read_pipe (n := n) h.small.2 h.inp h.rr h.hp
    have htd := h.todo
    rw [hx] at htd
    have hpd : ∀ pp' : Pipe, (Cons.ready = Cons.done → x.p = .done ∧ pp'.buf = []) := fun _ a => by cases a
    rcases readNow_cases pp n (decide (fr &&& oNONBLOCK ≠ 0)) h0 with ⟨w1, w2, w3⟩ | ⟨w1, w2, w3, w4, w5⟩ | ⟨w1, w2⟩
    · rw [w3] at e
      have hr : Reach (step x.s P.cq (.read P.gi n)).1 := Reach.step _ _ h.reach (tame_read _ _ _ _) (by rw [e]; simp)
      rw [e] at hr
      have hpdone : x.p = .done := by
        apply Decidable.byContradiction
        intro hne
        obtain ⟨cg, hc, hd⟩ := slot_cage (h.out hne)
        obtain ⟨p, a1, a2⟩ := h.reach.inv.alive hc hd
        rw [h.hp] at a1; cases a1
        rw [h.wf] at a2
        rcases a2 with ⟨a2, -⟩ | ⟨-, a2⟩
        · exact absurd a2 (by decide)
        · omega
      have he : next P x (.get n) = { s := { x.s with pipes := upd x.s.pipes id (some pp) }, p := x.p, q := .done } := by
        simp only [next, hx, e, if_true]
      have hok : Ok P i j id fw f g fr D (next P x (.get n)) pos pp := by
        rw [he]
        refine h.pipeStep hr (fun a => a) h.pend (fun _ => ⟨hpdone, w1⟩) (by simp [qh]) h.hpn h.np (fun _ a => by cases a) ?_
        rw [hx]; rfl
      refine ⟨pos, _, hok, fun _ => ⟨.inl ?_, ?_⟩⟩
      · rw [hok.todo, htd, he]; simp only [qw]; omega
      · rw [he]
    · have hr : Reach (step x.s P.cq (.read P.gi n)).1 := Reach.step _ _ h.reach (tame_read _ _ _ _) (by rw [e]; exact w5)
      rw [e, w3] at hr
      have he : next P x (.get n) = { s := { x.s with pipes := upd x.s.pipes id (some pp) }, p := x.p, q := .ready } := by
        simp only [next, hx, e, w3]
      have hok : Ok P i j id fw f g fr D (next P x (.get n)) pos pp := by
        rw [he]
        refine h.pipeStep hr (fun a => a) h.pend (hpd pp) (by simp [qh]) h.hpn h.np (fun _ a => by cases a) ?_
        rw [hx]
      refine ⟨pos, _, hok, fun _ => ⟨.inr ⟨.inr ⟨w1, w2⟩, ?_⟩, ?_⟩⟩
      · rw [hok.todo, htd, he]
      · rw [he]
    · rw [w2] at e
      have hr : Reach (step x.s P.cq (.read P.gi n)).1 := Reach.step _ _ h.reach (tame_read _ _ _ _) (by rw [e]; simp)
      rw [e] at hr
      have hbl : 0 < pp.buf.length := by
        cases hb : pp.buf with
        | nil => exact absurd hb w1
        | cons a t => simp
      have he : next P x (.get n) = ⟨{ x.s with pipes := upd x.s.pipes id (some { pp with buf := pp.buf.drop (min n pp.buf.length) }) },
          x.p, .has (pp.buf.take (min n pp.buf.length))⟩ := by
        simp only [next, hx, e]
        rw [if_neg (by omega)]
      have hok : Ok P i j id fw f g fr D (next P x (.get n)) pos { pp with buf := pp.buf.drop (min n pp.buf.length) } := by
        rw [he]
        refine h.pipeStep hr (fun a => a) h.pend (fun a => by cases a) ?_ h.hpn h.np ?_ ?_
        · simp only [qh, List.length_take]; omega
        · intro d hd; cases hd
          intro hh
          have := congrArg List.length hh
          simp only [List.length_take, List.length_nil] at this; omega
        · rw [hx]
          simp only [qh, List.nil_append]
          rw [← List.append_assoc, List.take_append_drop]
      refine ⟨pos, _, hok, fun _ => ⟨.inl ?_, ?_⟩⟩
      · rw [hok.todo, htd, he]
        simp only [qw, List.length_take, List.length_drop]; omega
      · rw [he]
  | has d => exact h.same (by simp only [next, hx]) (.inl (by rw [hx]; exact fun a => nomatch a))
  | done => exact h.same (by simp only [next, hx]) (.inl (by rw [hx]; exact fun a => nomatch a))

theorem Ok.store (h : Ok P i j id fw f g fr D x pos pp) : Fine P i j id fw f g fr D x pp .store := by
  cases hx : x.q with
  | has d =>
    have hq := h.hq
    rw [hx] at hq
    simp only [qh] at hq
    obtain ⟨fs', e, hb⟩ := write_file h.reach h.ogo h.rj h.wg hq
    have htd := h.todo
    rw [hx] at htd
    have hsum := h.sum
    rw [hx] at hsum
    simp only [qh] at hsum
    have hr : Reach (step x.s P.cq (.write P.go d)).1 := Reach.step _ _ h.reach (tame_write _ _ _ _) (by rw [e]; simp)
    rw [e] at hr
    obtain ⟨-, cg, hc, hd⟩ := h.ogo
    have hset := slot_set (s := { x.s with fs := fs' }) hc (fd := P.go) (some (.file j ((bytes x.s j).length + d.length) g))
    have hfs := setFd_fs { x.s with fs := fs' } P.cq P.go (some (.file j ((bytes x.s j).length + d.length) g))
    have hps := set_pipes { x.s with fs := fs' } P.cq P.go (some (.file j ((bytes x.s j).length + d.length) g))
    obtain ⟨b1, b2, b3⟩ := hb _ hfs
    obtain ⟨b4, b5⟩ := b3 i h.ne
    have hgo := h.ogo.slot
    have hfi := h.ofi.slot
    have hin := h.inp
    have hou := h.out
    have hslot : ∀ a b, slot { x.s with fs := fs' } a b = slot x.s a b := fun a b => rfl
    have he : next P x .store = ⟨({ x.s with fs := fs' } : State).setFd P.cq P.go (some (.file j ((bytes x.s j).length + d.length) g)),
          x.p, .ready⟩ := by
      have : rest d (.ok (d.length : Nat)) = [] := by simp [rest]
      simp only [next, hx, e, this, if_true]
    have hok : Ok P i j id fw f g fr D (next P x .store) pos pp := by
      rw [he]
      constructor
      · exact hr
      · exact h.small
      · exact h.ne
      · refine openOn_of_slot h.ofi.1 ?_
        dsimp only
        rw [hset, if_neg, hslot, hfi]
        rintro ⟨a, b⟩
        rw [a, b, hgo] at hfi
        cases hfi; exact h.ne rfl
      · exact h.rf
      · obtain ⟨nd, n1, n2⟩ := h.ri
        exact ⟨nd, b5.trans n1, n2⟩
      · exact b4.trans h.bi
      · exact h.le
      · refine openOn_of_slot h.ogo.1 ?_
        dsimp only
        rw [hset, if_pos ⟨rfl, rfl⟩, b1, List.length_append]
      · exact h.wg
      · dsimp only
        rw [b1, List.length_append]; exact b2
      · intro hd'
        have ho := hou hd'
        dsimp only
        rw [hset, if_neg, hslot, ho]
        rintro ⟨a, b⟩
        rw [a, b, hgo] at ho; cases ho
      · exact h.wf
      · dsimp only
        rw [hset, if_neg, hslot, hin]
        rintro ⟨a, b⟩
        rw [b, hgo] at hin; cases hin
      · exact h.rr
      · dsimp only; rw [hps]; exact h.hp
      · exact h.pend
      · intro a; cases a
      · simp [qh]
      · exact h.hpn
      · exact h.np
      · intro _ a; cases a
      · dsimp only
        rw [b1]
        simpa [qh, List.append_assoc] using hsum
    refine ⟨pos, _, hok, fun _ => ⟨.inl ?_, ?_⟩⟩
    · have := List.length_pos_iff.2 (h.nq d hx)
      rw [hok.todo, htd, he]; simp only [qw]; omega
    · rw [he]
  | ready => exact h.same (by simp only [next, hx]) (fun d => by rw [hx]; exact fun a => nomatch a)
  | done => exact h.same (by simp only [next, hx]) (fun d => by rw [hx]; exact fun a => nomatch a)

theorem Ok.shut (h : Ok P i j id fw f g fr D x pos pp) : Fine P i j id fw f g fr D x pp .shut := by
  cases hx : x.p with
  | ended =>
    have ho := h.out (by rw [hx]; exact fun a => nomatch a)
    have e := close_pipe h.small.1 ho h.hp
    have htd := h.todo
    rw [hx] at htd
    have hsum := h.sum
    rw [hx] at hsum
    have hr : Reach (step x.s P.cp (.close P.fo)).1 := Reach.step _ _ h.reach (tame_close _ _ _) (by rw [e]; simp)
    rw [e] at hr
    obtain ⟨cg, hc, hd⟩ := slot_cage ho
    have hset := slot_set (s := { x.s with pipes := upd x.s.pipes id (some (decrPipe pp fw)) }) hc (fd := P.fo) none
    have hfs := setFd_fs { x.s with pipes := upd x.s.pipes id (some (decrPipe pp fw)) } P.cp P.fo none
    have hps := set_pipes { x.s with pipes := upd x.s.pipes id (some (decrPipe pp fw)) } P.cp P.fo none
    have hslot : ∀ a b, slot { x.s with pipes := upd x.s.pipes id (some (decrPipe pp fw)) } a b = slot x.s a b := fun a b => rfl
    have hfs' : (State.setFd { x.s with pipes := upd x.s.pipes id (some (decrPipe pp fw)) } P.cp P.fo none).fs = x.s.fs := hfs
    have hgo := h.ogo.slot
    have hfi := h.ofi.slot
    have hin := h.inp
    have he : next P x .shut = ⟨(State.setFd { x.s with pipes := upd x.s.pipes id (some (decrPipe pp fw)) } P.cp P.fo none),
          .done, x.q⟩ := by
      simp only [next, hx, e]
    have hq0 : x.q ≠ .done := fun hh => by have := (h.qdone hh).1; rw [hx] at this; cases this
    have hok : Ok P i j id fw f g fr D (next P x .shut) pos (decrPipe pp fw) := by
      rw [he]
      constructor
      · exact hr
      · exact h.small
      · exact h.ne
      · refine openOn_of_slot h.ofi.1 ?_
        dsimp only
        rw [hset, if_neg, hslot, hfi]
        rintro ⟨a, b⟩
        rw [b, ho] at hfi; cases hfi
      · exact h.rf
      · exact isFile_fs hfs' h.ri
      · rw [bytes_fs hfs']; exact h.bi
      · exact h.le
      · refine openOn_of_slot h.ogo.1 ?_
        dsimp only
        rw [hset, if_neg, hslot, bytes_fs hfs', hgo]
        rintro ⟨a, b⟩
        rw [a, b, ho] at hgo; cases hgo
      · exact h.wg
      · dsimp only; rw [bytes_fs hfs']; exact isFile_fs hfs' h.rj
      · intro a; exact absurd rfl a
      · exact h.wf
      · dsimp only
        rw [hset, if_neg, hslot, hin]
        rintro ⟨a, b⟩
        rw [a, b, ho] at hin
        have : fw = fr := by injection hin with hin; injection hin
        have hw := h.wf
        rw [this, h.rr] at hw
        exact absurd hw (by decide)
      · exact h.rr
      · dsimp only; rw [hps]; simp [upd]
      · intro _; exact h.pend (.inl hx)
      · intro a; exact absurd a hq0
      · exact h.hq
      · exact .inl (by simp [ph])
      · intro _ a; cases a
      · exact h.nq
      · dsimp only
        rw [bytes_fs hfs', decr_buf]; exact hsum
    refine ⟨pos, _, hok, fun _ => ⟨.inl ?_, ?_⟩⟩
    · rw [hok.todo, htd, he, decr_buf]; simp only [pw]; omega
    · obtain ⟨p, a1, a2⟩ := h.reach.inv.alive hc hd
      rw [h.hp] at a1; cases a1
      have hwf := h.wf
      rw [hwf] at a2
      have hwr : 0 < pp.wref := by
        rcases a2 with ⟨a2, -⟩ | ⟨-, a2⟩
        · exact absurd a2 (by decide)
        · exact a2
      have : endOf fw = some .write := by rw [endOf_eq, hwf]; rfl
      rw [he, hx]
      simp only [decrPipe, this, Pipe.decr, fin, if_true]
      simp
      omega
  | ready => exact h.same (by simp only [next, hx]) (by simp only [Stuck, hx]; exact fun a => nomatch a)
  | has d => exact h.same (by simp only [next, hx]) (by simp only [Stuck, hx]; exact fun a => nomatch a)
  | done => exact h.same (by simp only [next, hx]) (by simp only [Stuck, hx]; exact fun a => nomatch a)

theorem file_kept {s : State} (h : Reach s) {c : Nat} {op : Op} (hr : Reach (step s c op).1) {c1 fd k pos n : Nat} {f : BitVec 32}
    (hf : IsFile s k n) (ho : OpenOn (step s c op).1 c1 fd k pos f) (hb : bytes (step s c op).1 k = bytes s k) :
    IsFile (step s c op).1 k n := by
  obtain ⟨nd', e1⟩ := StatBuf.open_exists hr ho
  have hl := (h.inv.content hf).2
  obtain ⟨nd, n1, n2, n3⟩ := hf
  have hlt : k < s.fs.next := h.inv.fs.tree.bound n1
  rcases (step_evo s c op).old k nd' e1 with ⟨nd0, m1, m2, -⟩ | hh
  · rw [n1] at m1; cases m1
    have hf' : IsFile (step s c op).1 k nd'.size := ⟨nd', e1, m2.trans n2, rfl⟩
    have := (hr.inv.content hf').2
    rw [hb, hl] at this
    rw [this]; exact hf'
  · omega

theorem Ok.other (h : Ok P i j id fw f g fr D x pos pp) {c : Nat} {op : Op} (ht : Tame x.s c op)
    (hn : (step x.s c op).2.ret ≠ .panic) (k : Kept P i j id x.s (step x.s c op).1) : Fine P i j id fw f g fr D x pp (.other c op) := by
  have hr := Reach.step c op h.reach ht hn
  have hp := k.pipe
  rw [h.hp] at hp
  cases hp' : (step x.s c op).1.pipes id with
  | none => rw [hp'] at hp; cases hp
  | some pp' =>
    rw [hp'] at hp
    have hbuf : pp'.buf = pp.buf := by injection hp
    have o1 : OpenOn (step x.s c op).1 P.cp P.fi i pos f := openOn_of_slot h.ofi.1 (by rw [k.fi]; exact h.ofi.slot)
    have o2 : OpenOn (step x.s c op).1 P.cq P.go j (bytes x.s j).length g := openOn_of_slot h.ogo.1 (by rw [k.go]; exact h.ogo.slot)
    refine ⟨pos, pp', ?_, fun a => a.elim⟩
    refine ⟨hr, h.small, h.ne, o1, h.rf, file_kept h.reach hr h.ri o1 k.src, k.src.trans h.bi, h.le, ?_, h.wg, ?_, ?_, h.wf, ?_, h.rr, hp',
      h.pend, ?_, h.hq, h.hpn, h.np, h.nq, ?_⟩
    · simp only [next]; rw [k.dst]; exact o2
    · simp only [next]; rw [k.dst]; exact file_kept h.reach hr h.rj o2 k.dst
    · intro a; simp only [next]; rw [k.fo]; exact h.out a
    · simp only [next]; rw [k.gi]; exact h.inp
    · intro a; rw [hbuf]; exact h.qdone a
    · simp only [next]; rw [k.dst, hbuf]; exact h.sum

theorem Ok.next (h : Ok P i j id fw f g fr D x pos pp) {m : Move} (hm : Fair P i j id fw x m) : Fine P i j id fw f g fr D x pp m := by
  cases m with
  | take n => exact h.take n hm.1 hm.2.1 hm.2.2
  | put => exact h.put
  | shut => exact h.shut
  | get n => exact h.get n hm.1 hm.2
  | store => exact h.store
  | other c op => exact h.other hm.1 hm.2.1 hm.2.2

end

theorem Start.ok {P : Plan} {i j id : Nat} {fw : BitVec 32} {x : Conf} (h : Start P i j id fw x) :
    ∃ f g fr pp, Ok P i j id fw f g fr (bytes x.s i) x 0 pp := by
  obtain ⟨f, n, s1, s2, s3⟩ := h.src
  obtain ⟨g, d1, d2, d3⟩ := h.dst
  obtain ⟨fr, i1, i2⟩ := h.inp
  have he := h.empty
  have hl := (h.reach.inv.content s3).2
  have hl0 := List.eq_nil_of_length_eq_zero (h.reach.inv.content d3).2
  cases hp : x.s.pipes id with
  | none => rw [hp] at he; cases he
  | some pp =>
    rw [hp] at he
    have hb : pp.buf = [] := by injection he
    refine ⟨f, g, fr, pp, h.reach, h.small, h.ne, s1, s2, by rw [hl]; exact s3, rfl, Nat.zero_le _, by rw [hl0]; exact d1, d2,
      by rw [hl0]; exact d3, fun _ => h.out.1, h.out.2, i1, i2, hp, ?_, ?_, ?_, ?_, ?_, ?_, ?_⟩
    · rw [h.p]; rintro (a | a) <;> cases a
    · rw [h.q]; intro a; cases a
    · rw [h.q]; simp [qh]
    · rw [h.p]; simp [ph]
    · rw [h.p]; intro _ a; cases a
    · rw [h.q]; intro _ a; cases a
    · rw [h.p, h.q, hb, hl0]; simp [qh, ph]

theorem Runs.ok {P : Plan} {i j id : Nat} {fw : BitVec 32} {x y : Conf} {ms : List Move} (hr : Runs P i j id fw x ms y)
    {f g fr : BitVec 32} {D : List UInt8} {pos : Nat} {pp : Pipe} (h : Ok P i j id fw f g fr D x pos pp) :
    ∃ pos' pp', Ok P i j id fw f g fr D y pos' pp' := by
  induction hr generalizing pos pp with
  | nil => exact ⟨pos, pp, h⟩
  | cons hm _ ih =>
    obtain ⟨pos', pp', h', -⟩ := h.next hm
    exact ih h'

end Verif.Pipeline
