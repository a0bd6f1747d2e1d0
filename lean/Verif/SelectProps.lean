import Verif.SelectLemmas
import Verif.PipeProps
import Verif.UnixWitness

/-!
# select, poll and epoll: C42, C43, C44
-/

set_option linter.unusedSimpArgs false

namespace Verif.Select

open Verif.Pipe (Pipe)
open Verif.UnixSock (ConnState)

/-! ## Specification -/

/-- Reading (accepting) would not wait: a file or an epoll descriptor; a pipe of which a read of one byte does not come back with
EAGAIN; a listening unix socket with a connection request, a connected one of which a read does not have to wait; an internet socket
the host says is readable. -/
def CanRead (h : Host) : View → Prop
  | .file => True
  | .epoll => True
  | .stream => False
  | .pipe p => (p.readNow 1 true).2.1 ≠ .err .EAGAIN
  | .unix u => (u.st = .listen ∧ u.request = some true) ∨
      ((u.st = .connected ∨ (u.st = .inProgress ∧ u.asking = some false)) ∧
        ∃ p, u.inp = some p ∧ (p.readNow 1 true).2.1 ≠ .err .EAGAIN)
  | .inet raw _ => 0 ≤ raw ∧ h.fail = false ∧ h.ready raw = true
  | .other => False

/-- Writing would not wait: a pipe with room for more than a page or without readers; any file, stream, epoll descriptor or socket. -/
def CanWrite : View → Prop
  | .pipe p => 4096 < p.cap - p.buf.length ∨ p.rref = 0
  | .other => False
  | _ => True

/-- The descriptor is in the set. -/
def Member (s : Option FdSet) (d : Nat) : Prop := ∃ t, s = some t ∧ t d = true

/-- Number of descriptors below `n` in the set. -/
def size (n : Nat) (s : Option FdSet) : Nat :=
  match s with
  | none => 0
  | some t => ((List.range n).filter t).length

/-- A requested descriptor is closed when the pass comes to it. -/
def Closed (n : Nat) (r w e : Option FdSet) (p : Pass) : Prop :=
  ∃ d, d < n ∧ ((Member r d ∧ p.rd d = none) ∨ (Member w d ∧ p.wr d = none) ∨ (Member e d ∧ p.ex d = none))

/-- Nothing requested is ready when the pass comes to it. -/
def Idle (n : Nat) (r w : Option FdSet) (p : Pass) : Prop :=
  ∀ d v, d < n → (Member r d → p.rd d = some v → ¬ CanRead p.host v) ∧ (Member w d → p.wr d = some v → ¬ CanWrite v)

/-- Views at which the call neither aborts, nor hangs, nor fails for a reason of its own. -/
def Plain : View → Prop
  | .unix u => u.st ≠ .inProgress ∧ (u.st = .listen → u.request ≠ none) ∧ (u.st = .connected → u.inp ≠ none)
  | .inet raw est => raw < 1024 ∧ est = false
  | .other => False
  | _ => True

/-! ## Readiness -/

theorem selectRead_iff (p : Pipe) : p.selectRead = true ↔ (p.readNow 1 true).2.1 ≠ .err .EAGAIN := by
  rw [Pipe.select_read_iff p 1 true (by decide)]
  constructor
  · exact fun h => h.2
  · intro h
    refine ⟨?_, h⟩
    unfold Pipe.readNow
    grind

theorem readyR_iff (h : Host) (v : View) : readyR h v ↔ CanRead h v := by
  unfold readyR
  cases v with
  | file => simp [hitR, CanRead]
  | epoll => simp [hitR, CanRead]
  | stream => simp [hitR, CanRead]
  | other => simp [hitR, CanRead]
  | pipe p => simp [hitR, CanRead, selectRead_iff]
  | inet raw est =>
    simp only [hitR, CanRead, Bool.false_eq_true, false_or]
    constructor
    · rintro ⟨raw', est', e, k⟩; cases e; exact k
    · intro k; exact ⟨raw, est, rfl, k⟩
  | unix u =>
    obtain ⟨st, rq, ask, inp⟩ := u
    simp only [hitR, CanRead]
    cases st <;> cases inp <;> simp [selectRead_iff]

theorem hitW_iff (v : View) : hitW v = true ↔ CanWrite v := by
  cases v <;> simp [hitW, CanWrite, Pipe.selectWrite, Pipe.remaining, Pipe.pageSize]

/-- C42.  What "can read" means for pipes: a read of any positive number of bytes neither waits nor reports EAGAIN. -/
theorem can_read_pipe (h : Host) (p : Pipe) (n : Nat) (nb : Bool) (hn : 0 < n) :
    CanRead h (.pipe p) ↔ (p.readNow n nb).2.1 ≠ .blocked ∧ (p.readNow n nb).2.1 ≠ .err .EAGAIN := by
  rw [← readyR_iff, ← Pipe.select_read_iff p n nb hn]
  simp [readyR, hitR]

/-- C42.  What "can write" means for pipes: a non-blocking write of any bytes writes some or reports the missing reader. -/
theorem can_write_pipe (p : Pipe) (h : CanWrite (.pipe p)) (data : List UInt8) (hd : data ≠ []) :
    (p.writeNow data true).2 = .err .EPIPE ∨ ∃ v : Nat, 0 < v ∧ (p.writeNow data true).2 = .ok v :=
  Pipe.select_write_sound p data hd ((hitW_iff (.pipe p)).2 h)

/-! ## C42 -/

theorem select_loop {nfds : Int} {r w e : Option FdSet} {ps : List Pass} (h0 : 0 ≤ nfds) (h1 : nfds < 1024) :
    select nfds r w e ps = selectLoop nfds.toNat r w e ps zero := by
  have : ¬ (nfds < 0 ∨ nfds ≥ fdSetMax) := by simp only [fdSetMax]; omega
  simp only [select, this, if_false]; rfl

theorem select_range {nfds : Int} {r w e : Option FdSet} {ps : List Pass} (h : (select nfds r w e ps).ret ≠ .err .EINVAL) :
    0 ≤ nfds ∧ nfds < 1024 := by
  by_cases hc : nfds < 0 ∨ nfds ≥ fdSetMax
  · simp [select, hc] at h
  · simp only [fdSetMax] at hc; omega

theorem select_ok {nfds : Int} {r w e : Option FdSet} {ps : List Pass} {k : Int} (h : (select nfds r w e ps).ret = .ok k) :
    ∃ pre p post a, ps = pre ++ p :: post ∧ (∀ q ∈ pre, pass nfds.toNat r w e q zero = .ok zero ∧ q.late = false) ∧
      pass nfds.toNat r w e p zero = .ok a ∧ (a.ret ≠ 0 ∨ p.late = true) ∧ k = a.ret ∧
      (select nfds r w e ps).rd = (r.map fun _ => a.rd) ∧ (select nfds r w e ps).wr = (w.map fun _ => a.wr) := by
  obtain ⟨h0, h1⟩ := select_range (nfds := nfds) (r := r) (w := w) (e := e) (ps := ps) (by rw [h]; simp)
  rw [select_loop h0 h1] at h ⊢
  cases loop_ends nfds.toNat r w e ps with
  | wait _ k2 => rw [h] at k2; cases k2
  | fail _ _ k3 k4 =>
    rw [h] at k4; subst k4
    rcases pass_err k3 with ⟨e1, -⟩ | ⟨-, ⟨d, v, -, -, -, hs⟩ | ⟨-, e1⟩ | ⟨d, v, -, -, -, hs⟩⟩
    · cases e1
    · cases v with
      | unix u => simp only [stopR] at hs; repeat' split at hs
                  all_goals cases hs
      | inet raw est => simp only [stopR] at hs; split at hs <;> cases hs
      | _ => simp [stopR] at hs
    · cases e1
    · cases v with
      | unix u => simp only [writeOne] at hs; repeat' split at hs
                  all_goals cases hs
      | inet raw est => simp only [writeOne] at hs; split at hs <;> cases hs
      | _ => simp [writeOne] at hs
  | done k1 k2 k3 k4 k5 k6 k7 =>
    rw [h] at k5
    cases k5
    exact ⟨_, _, _, _, k1, k2, k3, k4, rfl, k6, k7⟩
  | intr _ _ _ _ k5 => rw [h] at k5; cases k5

/-- C42.  A successful select returns the number of descriptors in the two result sets. -/
theorem select_count {nfds : Int} {r w e : Option FdSet} {ps : List Pass} {k : Int} (h : (select nfds r w e ps).ret = .ok k) :
    k = size nfds.toNat (select nfds r w e ps).rd + size nfds.toNat (select nfds r w e ps).wr := by
  obtain ⟨pre, p, post, a, -, -, h3, -, rfl, h6, h7⟩ := select_ok h
  have K := pass_ok h3
  rw [h6, h7, K.count]
  have e1 : size nfds.toNat (r.map fun _ => a.rd) = card nfds.toNat a.rd := by
    cases r with
    | some r => rfl
    | none =>
      have : a.rd = emptySet := by
        funext d
        cases hd : a.rd d with
        | false => rfl
        | true => obtain ⟨_, ⟨_, e, _⟩, _⟩ := K.bitR d hd; cases e
      rw [this, card_empty]; rfl
  have e2 : size nfds.toNat (w.map fun _ => a.wr) = card nfds.toNat a.wr := by
    cases w with
    | some w => rfl
    | none =>
      have : a.wr = emptySet := by
        funext d
        cases hd : a.wr d with
        | false => rfl
        | true => obtain ⟨_, ⟨_, e, _⟩, _⟩ := K.bitW d hd; cases e
      rw [this, card_empty]; rfl
  rw [e1, e2, Int.natCast_add]

/-- C42.  A descriptor in a result set is below `nfds`, was requested, and was open and ready when the call looked at it. -/
theorem select_bits {nfds : Int} {r w e : Option FdSet} {ps : List Pass} {k : Int} (h : (select nfds r w e ps).ret = .ok k) (d : Nat) :
    (Member (select nfds r w e ps).rd d →
      (d : Int) < nfds ∧ Member r d ∧ ∃ p ∈ ps, ∃ v, p.rd d = some v ∧ CanRead p.host v) ∧
    (Member (select nfds r w e ps).wr d →
      (d : Int) < nfds ∧ Member w d ∧ ∃ p ∈ ps, ∃ v, p.wr d = some v ∧ CanWrite v) := by
  obtain ⟨pre, p, post, a, h1, -, h3, -, rfl, h6, h7⟩ := select_ok h
  have K := pass_ok h3
  have hm : p ∈ ps := by simp [h1]
  rw [h6, h7]
  constructor
  · rintro ⟨t, ht, hd⟩
    obtain ⟨req, -, e⟩ := Option.map_eq_some_iff.1 ht
    subst e
    obtain ⟨k1, k2, v, k3, k4⟩ := K.bitR d hd
    exact ⟨by omega, k2, p, hm, v, k3, (readyR_iff _ _).1 k4⟩
  · rintro ⟨t, ht, hd⟩
    obtain ⟨req, -, e⟩ := Option.map_eq_some_iff.1 ht
    subst e
    obtain ⟨k1, k2, v, k3, k4⟩ := K.bitW d hd
    exact ⟨by omega, k2, p, hm, v, k3, (hitW_iff _).1 k4⟩

/-- C42.  If select does not succeed, the sets are as they were. -/
theorem select_failed {nfds : Int} {r w e : Option FdSet} {ps : List Pass} (h : ∀ k, (select nfds r w e ps).ret ≠ .ok k) :
    (select nfds r w e ps).rd = r ∧ (select nfds r w e ps).wr = w := by
  by_cases hc : nfds < 0 ∨ nfds ≥ fdSetMax
  · simp [select, hc]
  · have h0 : 0 ≤ nfds ∧ nfds < 1024 := by simp only [fdSetMax] at hc; omega
    rw [select_loop h0.1 h0.2] at h ⊢
    cases loop_ends nfds.toNat r w e ps with
    | wait _ _ k3 k4 => exact ⟨k3, k4⟩
    | fail _ _ _ _ k5 k6 => exact ⟨k5, k6⟩
    | done _ _ _ _ k5 => exact absurd k5 (h _)
    | intr _ _ _ _ _ k6 k7 => exact ⟨k6, k7⟩

/-- C42.  EBADF only if some requested descriptor below `nfds` was closed. -/
theorem select_ebadf {nfds : Int} {r w e : Option FdSet} {ps : List Pass} (h : (select nfds r w e ps).ret = .err .EBADF) :
    ∃ p ∈ ps, Closed nfds.toNat r w e p := by
  obtain ⟨h0, h1⟩ := select_range (nfds := nfds) (r := r) (w := w) (e := e) (ps := ps) (by rw [h]; simp)
  rw [select_loop h0 h1] at h
  cases loop_ends nfds.toNat r w e ps with
  | wait _ k2 => rw [h] at k2; cases k2
  | fail k1 _ k3 k4 =>
    rw [h] at k4; subst k4
    rcases pass_err k3 with ⟨-, d, hd, k⟩ | ⟨k, -⟩
    · exact ⟨_, by simp [k1], d, hd, k⟩
    · exact absurd rfl k
  | done _ _ _ _ k5 => rw [h] at k5; cases k5
  | intr _ _ _ _ k5 => rw [h] at k5; cases k5

theorem plain_stopR {v : View} (h : Plain v) : stopR v = none := by
  cases v with
  | unix u =>
    obtain ⟨st, rq, ask, inp⟩ := u
    obtain ⟨h1, h2, h3⟩ := h
    simp only [stopR]
    cases st <;> simp_all
  | inet raw est =>
    have : ¬ raw ≥ fdSetMax := by simp only [fdSetMax]; have := h.1; omega
    simp [stopR, this]
  | other => cases h
  | _ => rfl

theorem plain_writeOne {v : View} (h : Plain v) {x : Ret} : writeOne v ≠ .error x := by
  cases v with
  | unix u => have := h.1; simp [writeOne, this]
  | inet raw est => have := h.2; simp [writeOne, this]
  | other => cases h
  | _ => simp [writeOne]

/-- C42.  If a requested descriptor below `nfds` is closed when the call first looks, the call fails with EBADF (provided no
descriptor is in a state that makes the call abort, hang or fail otherwise; see the witnesses). -/
theorem select_closed_partial {nfds : Int} {r w e : Option FdSet} {p : Pass} {ps : List Pass} (h0 : 0 ≤ nfds) (h1 : nfds < 1024)
    (hc : Closed nfds.toNat r w e p) (hr : ∀ d v, Member r d → p.rd d = some v → Plain v)
    (hw : ∀ d v, Member w d → p.wr d = some v → Plain v)
    (hh : p.host.fail = false) : (select nfds r w e (p :: ps)).ret = .err .EBADF := by
  rw [select_loop h0 h1]
  simp only [selectLoop]
  cases hp : pass nfds.toNat r w e p zero with
  | ok a =>
    have K := pass_ok hp
    obtain ⟨d, hd, ⟨k1, k2⟩ | ⟨k1, k2⟩ | ⟨k1, k2⟩⟩ := hc
    · obtain ⟨v, ho, -⟩ := K.openR d hd k1; rw [k2] at ho; cases ho
    · obtain ⟨v, b, ho, -⟩ := K.openW d hd k1; rw [k2] at ho; cases ho
    · obtain ⟨v, ho⟩ := K.openE d hd k1; rw [k2] at ho; cases ho
  | error x =>
    rcases pass_err hp with ⟨rfl, -⟩ | ⟨-, ⟨d, v, -, hm, ho, hs⟩ | ⟨hf, -⟩ | ⟨d, v, -, hm, ho, hs⟩⟩
    · rfl
    · rw [plain_stopR (hr d v hm ho)] at hs; cases hs
    · rw [hh] at hf; cases hf
    · exact absurd hs (plain_writeOne (hw d v hm ho))

/-- C42.  If select returns 0, the time was up, and at no time the call looked was anything requested ready. -/
theorem select_zero {nfds : Int} {r w e : Option FdSet} {ps : List Pass} (h : (select nfds r w e ps).ret = .ok 0) :
    ∃ pre p post, ps = pre ++ p :: post ∧ p.late = true ∧ (∀ q ∈ pre, q.late = false) ∧
      ∀ q ∈ pre ++ [p], Idle nfds.toNat r w q := by
  obtain ⟨pre, p, post, a, h1, h2, h3, h4, h5, -, -⟩ := select_ok h
  have hz : a.ret = 0 := by omega
  refine ⟨pre, p, post, h1, h4.resolve_left (fun hn => hn hz), fun q hq => (h2 q hq).2, ?_⟩
  have main : ∀ q b, pass nfds.toNat r w e q zero = .ok b → b.ret = 0 → Idle nfds.toNat r w q := by
    intro q b hq hb d v hd
    have K := pass_ok hq
    refine ⟨fun hm ho hv => K.nothingR hb d v hd hm ho ((readyR_iff _ _).2 hv), fun hm ho hv => ?_⟩
    have := K.nothingW hb d v hd hm ho
    rw [(hitW_iff v).2 hv] at this; cases this
  intro q hq
  rcases List.mem_append.1 hq with hq | hq
  · exact main q zero (h2 q hq).1 rfl
  · rw [List.mem_singleton.1 hq]; exact main p a h3 hz

/-- C42.  With something requested ready when the call first looks, it does not return 0. -/
theorem select_not_zero {nfds : Int} {r w e : Option FdSet} {p : Pass} {ps : List Pass} {d : Nat} {v : View} (hd : d < nfds.toNat)
    (h : (Member r d ∧ p.rd d = some v ∧ CanRead p.host v) ∨ (Member w d ∧ p.wr d = some v ∧ CanWrite v)) :
    (select nfds r w e (p :: ps)).ret ≠ .ok 0 := by
  intro hz
  obtain ⟨pre, q, post, h1, -, -, h4⟩ := select_zero hz
  have hp : p ∈ pre ++ [q] := by
    cases pre with
    | nil => cases h1; simp
    | cons x pre => cases h1; simp
  have := h4 p hp d v hd
  rcases h with ⟨k1, k2, k3⟩ | ⟨k1, k2, k3⟩
  · exact this.1 k1 k2 k3
  · exact this.2 k1 k2 k3

end Verif.Select
