import Verif.Txn

/-! # Transactions on a file of records under a lock (property C115) -/

namespace Verif.Txn
open Verif.Fs Verif.Kernel Verif.Path Verif.Recovery
open Verif.LockFile (There)

/-! ## Lemmas -/

/-- The log is a sequence of whole transactions, followed by one that is under way if somebody is inside. -/
def Serial (l : List Mark) : Option Nat → Prop
  | none => ∃ ts : List Tx, (∀ t ∈ ts, t.Own) ∧ l = ts.flatMap Tx.whole
  | some c => ∃ (ts : List Tx) (t : Tx), (∀ t ∈ ts, t.Own) ∧ t.Own ∧ t.who = c ∧ l = ts.flatMap Tx.whole ++ t.begun

theorem Serial.enter {l : List Mark} (h : Serial l none) (c : Nat) : Serial (l ++ [.enter c]) (some c) := by
  obtain ⟨ts, h1, h2⟩ := h
  exact ⟨ts, ⟨c, []⟩, h1, (by intro e he; cases he), rfl, by rw [h2]; rfl⟩

theorem Serial.act {l : List Mark} {c : Nat} (h : Serial l (some c)) {e : Records.Event} (he : by_ e = c) : Serial (l ++ [.act e]) (some c) := by
  obtain ⟨ts, t, h1, h2, h3, h4⟩ := h
  refine ⟨ts, ⟨c, t.did ++ [e]⟩, h1, ?_, rfl, ?_⟩
  · intro a ha
    simp only [List.mem_append, List.mem_singleton] at ha
    rcases ha with ha | rfl
    · rw [h2 a ha, h3]
    · exact he
  · rw [h4]; simp [Tx.begun, h3]

theorem Serial.leave {l : List Mark} {c : Nat} (h : Serial l (some c)) : Serial (l ++ [.leave c]) none := by
  obtain ⟨ts, t, h1, h2, h3, h4⟩ := h
  refine ⟨ts ++ [t], ?_, ?_⟩
  · intro a ha
    simp only [List.mem_append, List.mem_singleton] at ha
    rcases ha with ha | rfl
    · exact h1 a ha
    · exact h2
  · rw [h4]; simp [Tx.begun, Tx.whole, h3]

/-- What holds all the time. -/
structure Ok (P : Plan) (t : Nat → List UInt8) (D : List UInt8) (y : Conf) : Prop where
  lock : LockFile.Ok P.lock y.x
  recs : Records.Ok P.file t D ⟨y.x.s, acts y.log⟩
  serial : Serial y.log y.x.holders.head?

theorem Start.ok {P : Plan} {y : Conf} (h : Start P y) : Ok P (Records.record P.file y.x.s) (bytes y.x.s P.file.i) y := by
  refine ⟨h.lock.ok, ?_, ?_⟩
  · rw [h.log]; exact h.file.ok
  · rw [h.log, h.lock.nobody]; exact ⟨[], nofun, rfl⟩

theorem acts_append (a b : List Mark) : acts (a ++ b) = acts a ++ acts b := by simp [acts]

/-- A call that leaves the file and the descriptors alone. -/
theorem recs_other {P : Plan} {t : Nat → List UInt8} {D : List UInt8} {y : Conf} (h : Ok P t D y) {c : Nat} {op : Op} (ht : Tame y.x.s c op)
    (hnp : (step y.x.s c op).2.ret ≠ .panic) (he : ∀ e, ¬ Edits y.x.s c P.file.i op e)
    (hs : ∀ d, slot y.x.s c (P.file.fd c) = some d → slot (step y.x.s c op).1 c (P.file.fd c) = some d) :
    Records.Ok P.file t D ⟨(step y.x.s c op).1, acts y.log⟩ :=
  h.recs.other (c := c) (op := op) ⟨ht, hnp, he, fun _ pos _ hp => ⟨pos, hs _ hp⟩⟩

theorem make_slot {s : State} {c k : Nat} {p : Str} {w : AnyLock.Make} {d : Desc} (h : slot s c k = some d) :
    slot (step s c (w.op p)).1 c k = some d := by
  cases w with
  | file flags mode => exact LockedAppend.open_slot h
  | dir mode =>
    rw [← h]
    cases hc : s.cages c with
    | none => simp only [step, hc]
    | some cg => simp only [AnyLock.Make.op, step, hc, nonEmpty]; split <;> rfl
  | link old =>
    rw [← h]
    cases hc : s.cages c with
    | none => simp only [step, hc]
    | some cg => simp only [AnyLock.Make.op, step, hc, nonEmpty]; split <;> (try split) <;> rfl

theorem gone_slot {s : State} {c k : Nat} {p : Str} {dir : Bool} : slot (step s c (AnyLock.gone p dir)).1 c k = slot s c k := by
  cases hc : s.cages c with
  | none => simp only [step, hc]
  | some cg =>
    cases dir <;> simp only [AnyLock.gone, step, hc, nonEmpty, if_true, Bool.false_eq_true, if_false] <;> split <;> rfl

theorem Ok.take {P : Plan} {t : Nat → List UInt8} {D : List UInt8} {y : Conf} (hN : P.lock ≠ []) (h : Ok P t D y) {c : Nat} {p : Str} {w : AnyLock.Make}
    (hf : Fair P y (.take c p w)) : Ok P t D (next P y (.take c p w)) := by
  have hl := AnyLock.take_ok hN h.lock hf
  obtain ⟨⟨cg, hc, hp⟩, hw⟩ := hf
  obtain ⟨ht, hans⟩ := AnyLock.make_returns h.lock.reach hc (p := p) (by rw [hp]; exact hN) w
  have hnp : (step y.x.s c (w.op p)).2.ret ≠ .panic := by
    intro hx; rcases hans with ⟨e, he⟩ | ⟨v, hv⟩ <;> simp_all
  have hr := recs_other h ht hnp (by
    intro e he
    cases w with
    | dir => cases he
    | link => cases he
    | file flags mode =>
      rcases he with _ | _ | _ | _ | _ | ⟨hc', hi, -, hok⟩
      rw [hc] at hc'; cases hc'
      exact (AnyLock.make_ok (w := .file flags mode) h.lock.reach hc hw hok).1 _ hi) (fun d hd => make_slot hd)
  refine ⟨hl, ?_, ?_⟩
  · have : acts (next P y (.take c p w)).log = acts y.log := by
      simp only [next]; split <;> simp [acts]
    rw [this]; exact hr
  · rcases hans with ⟨e, he⟩ | ⟨v, hv⟩
    · simp only [next, AnyLock.next, he]; exact h.serial
    · have hnone : y.x.holders = [] := by
        rcases h.lock.one with ⟨h1, -⟩ | ⟨c', -, k, hk⟩
        · exact h1
        · exact absurd (show Leads y.x.s cg p k by unfold Leads; rw [hp]; exact hk) ((AnyLock.make_ok h.lock.reach hc hw hv).1 k)
      have hs := h.serial
      simp only [next, AnyLock.next, hv]
      rw [hnone] at hs ⊢
      exact hs.enter c

theorem Ok.give {P : Plan} {t : Nat → List UInt8} {D : List UInt8} {y : Conf} (h : Ok P t D y) {c : Nat} {p : Str} {dir : Bool}
    (hf : Fair P y (.give c p dir)) : Ok P t D (next P y (.give c p dir)) := by
  have hl := AnyLock.give_ok h.lock hf
  obtain ⟨⟨cg, hc, hp⟩, hnp, hw⟩ := hf
  by_cases hm : c ∈ y.x.holders
  · have ht : Tame y.x.s c (AnyLock.gone p dir) := by
      cases dir with
      | true => simp only [AnyLock.gone, if_true, Tame, hc]
      | false => exact LockFile.give_tame h.lock.reach hc (by rw [hp]; exact hw rfl)
    have hr := recs_other h ht hnp (by intro e he; cases dir <;> cases he) (fun d hd => by rw [gone_slot]; exact hd)
    refine ⟨hl, ?_, ?_⟩
    · have h1 : acts (next P y (.give c p dir)).log = acts y.log := by
        simp only [next]; split <;> simp [acts]
      have h2 : (next P y (.give c p dir)).x.s = (step y.x.s c (AnyLock.gone p dir)).1 := by simp only [next, AnyLock.next, if_pos hm]
      rw [h1, h2]; exact hr
    · obtain h1 : y.x.holders = [c] := by
        rcases h.lock.one with ⟨h1, -⟩ | ⟨c', h1, -⟩
        · rw [h1] at hm; simp at hm
        · rw [h1] at hm ⊢; simp at hm; rw [hm]
      have hs := h.serial
      rw [h1] at hs
      by_cases hret : (step y.x.s c (AnyLock.gone p dir)).2.ret = .ok 0
      · simp [next, AnyLock.next, hret, h1]; exact hs.leave
      · simp [next, AnyLock.next, hret, h1]; exact hs
  · have hx : next P y (.give c p dir) = y := by simp [next, AnyLock.next, hm]
    rw [hx]; exact h

theorem inside {P : Plan} {t : Nat → List UInt8} {D : List UInt8} {y : Conf} (h : Ok P t D y) {c : Nat} (hm : c ∈ y.x.holders) : y.x.holders = [c] := by
  rcases h.lock.one with ⟨h1, -⟩ | ⟨c', h1, -⟩
  · rw [h1] at hm; simp at hm
  · rw [h1] at hm ⊢; simp at hm; rw [hm]

theorem Ok.get {P : Plan} {t : Nat → List UInt8} {D : List UInt8} {y : Conf} (h : Ok P t D y) {c k : Nat} (hf : Fair P y (.get c k)) :
    Ok P t D (next P y (.get c k)) := by
  by_cases hm : c ∈ y.x.holders
  · have hr := h.recs.get hf
    obtain ⟨e1, -, -⟩ := h.recs.got hf.1 hf.2
    simp only [next, if_pos hm, Records.next] at hr ⊢
    dsimp only at e1
    refine ⟨?_, ?_, ?_⟩
    · dsimp only; rw [e1]; exact h.lock
    · dsimp only; rw [acts_append]; exact hr
    · have hs := h.serial
      dsimp only
      rw [inside h hm] at hs ⊢
      exact hs.act rfl
  · simp only [next, if_neg hm]; exact h

theorem takes_pwrite {s : State} {c : Nat} {fd off : Int} {d : List UInt8} : ∀ q ∈ takes s c (.pwrite fd d off) ++ makes s c (.pwrite fd d off), False := by
  cases hc : s.cages c <;> simp [takes, makes, hc]

theorem Ok.put {P : Plan} {t : Nat → List UInt8} {D : List UInt8} {y : Conf} (h : Ok P t D y) {c k : Nat} {d : List UInt8} (hf : Fair P y (.put c k d)) :
    Ok P t D (next P y (.put c k d)) := by
  by_cases hm : c ∈ y.x.holders
  · obtain ⟨hr, hret⟩ := h.recs.put hf
    dsimp only at hret
    have hl := LockFile.other_ok h.lock (c := c) (op := .pwrite (P.file.fd c) d (P.file.size * k : Nat))
      ⟨Records.tame_pwrite _ _ _ _ _, by rw [hret]; simp, fun q hq => (takes_pwrite q hq).elim⟩
    simp only [next, if_pos hm, Records.next] at hr ⊢
    refine ⟨hl, ?_, ?_⟩
    · dsimp only; rw [acts_append]; exact hr
    · have hs := h.serial
      dsimp only
      rw [inside h hm] at hs ⊢
      exact hs.act rfl
  · simp only [next, if_neg hm]; exact h

theorem Runs.ok {P : Plan} {t : Nat → List UInt8} {D : List UInt8} {y z : Conf} {ms : List Move} (hN : P.lock ≠ []) (hr : Runs P y ms z) (h : Ok P t D y) :
    Ok P t D z := by
  induction hr with
  | nil => exact h
  | cons hf _ ih =>
    rename_i m _ _
    refine ih ?_
    cases m with
    | take => exact h.take hN hf
    | put => exact h.put hf
    | get => exact h.get hf
    | give => exact h.give hf
    | other c op => exact ⟨LockFile.other_ok h.lock hf.1, h.recs.other hf.2, h.serial⟩

theorem acts_map (l : List Records.Event) : acts (l.map .act) = l := by
  induction l with
  | nil => rfl
  | cons a l ih => simp only [acts, List.map_cons, List.filterMap_cons] at ih ⊢; rw [ih]

theorem acts_whole (ts : List Tx) : acts (ts.flatMap Tx.whole) = ts.flatMap Tx.did := by
  induction ts with
  | nil => rfl
  | cons a ts ih =>
    simp only [List.flatMap_cons, acts_append, ih, Tx.whole, acts_map]
    simp [acts]

/-! ## Theorems -/

/-- C115.  **Transactions are serializable.**  Whatever the processes do in whatever order, what happened is a sequence of whole transactions, followed by
at most one that is under way, and none mixes with another; everybody sees the records left by what comes before in that sequence; and the file
holds the records that the sequence leaves.  Partial: each call is one step. -/
theorem txn_serial_partial {P : Plan} {y z : Conf} {ms : List Move} (h : Start P y) (hr : Runs P y ms z) :
    (∃ (ts : List Tx) (now : List Tx), (∀ t ∈ ts ++ now, t.Own) ∧ now.map Tx.who = z.x.holders ∧ now.length ≤ 1 ∧
      z.log = ts.flatMap Tx.whole ++ now.flatMap Tx.begun ∧ acts z.log = (ts ++ now).flatMap Tx.did) ∧
    Records.Legal (Records.record P.file y.x.s) (acts z.log) ∧
    ∀ k, k < P.file.count → Records.record P.file z.x.s k = Records.after (Records.record P.file y.x.s) (acts z.log) k := by
  have ok := hr.ok (AnyLock.There.ne_nil h.lock.missing) h.ok
  refine ⟨?_, ok.recs.legal, ok.recs.now⟩
  have hs := ok.serial
  rcases ok.lock.one with ⟨h1, -⟩ | ⟨c, h1, -⟩ <;> rw [h1] at hs ⊢
  · obtain ⟨ts, s1, s2⟩ := hs
    exact ⟨ts, [], by simpa using s1, rfl, by simp, by rw [s2]; simp, by rw [s2, acts_whole]; simp⟩
  · obtain ⟨ts, t, s1, s2, s3, s4⟩ := hs
    refine ⟨ts, [t], ?_, by simp [s3], by simp, by rw [s4]; simp, ?_⟩
    · intro a ha
      simp only [List.mem_append, List.mem_singleton] at ha
      rcases ha with ha | rfl
      · exact s1 a ha
      · exact s2
    · rw [s4, acts_append, acts_whole]
      simp only [Tx.begun, acts_append, acts_map]
      simp [acts]

/-- C115.  **No update is lost.**  If what happened are the whole transactions `ts`, each of which reads record `k` and writes what its process makes of it
(`f`), then the record is the one at the start with all these changes made one after the other. -/
theorem no_lost_update_partial {P : Plan} {y z : Conf} {ms : List Move} (h : Start P y) (hr : Runs P y ms z) {ts : List Tx}
    (hz : z.log = ts.flatMap Tx.whole) {k : Nat} (hk : k < P.file.count) (f : Nat → List UInt8 → List UInt8)
    (hf : ∀ t ∈ ts, ∃ v, t.did = [.saw t.who k v, .wrote t.who k (f t.who v)]) :
    Records.record P.file z.x.s k = ts.foldl (fun v t => f t.who v) (Records.record P.file y.x.s k) := by
  obtain ⟨-, hleg, hnow⟩ := txn_serial_partial h hr
  rw [hnow k hk]
  rw [hz, acts_whole] at hleg ⊢
  have key : ∀ (ts : List Tx), (∀ t ∈ ts, ∃ v, t.did = [.saw t.who k v, .wrote t.who k (f t.who v)]) → ∀ pre,
      Records.Legal (Records.record P.file y.x.s) (pre ++ ts.flatMap Tx.did) →
      Records.after (Records.record P.file y.x.s) (pre ++ ts.flatMap Tx.did) k =
        ts.foldl (fun v t => f t.who v) (Records.after (Records.record P.file y.x.s) pre k) := by
    intro ts
    induction ts with
    | nil => intro _ pre _; simp
    | cons a ts ih =>
      intro hts pre hl
      obtain ⟨v, hv⟩ := hts a (by simp)
      simp only [List.flatMap_cons, List.foldl_cons] at hl ⊢
      have e : pre ++ (a.did ++ ts.flatMap Tx.did) = (pre ++ a.did) ++ ts.flatMap Tx.did := by simp
      have hvv : v = Records.after (Records.record P.file y.x.s) pre k :=
        hl pre (.wrote a.who k (f a.who v) :: ts.flatMap Tx.did) a.who k v (by rw [hv]; simp)
      rw [e] at hl ⊢
      rw [ih (fun t ht => hts t (by simp [ht])) _ hl]
      congr 1
      rw [Records.after_append, hv]
      simp only [Records.after, if_true]
      rw [hvv]
  simpa [Records.after] using key ts hf [] (by simpa using hleg)

/-- C115.  After a crash between any two calls and the next start, a path that led to the file leads to it, its records are those that the transactions
left, also the one under way, and the name of the lock is there exactly if there is one under way. -/
theorem txn_crash_partial {P : Plan} {y z : Conf} {ms : List Move} (h : Start P y) (hr : Runs P y ms z) {D : Nat → Prop} {b : Snap} (hs : Sess D b z.x.s)
    {q : List Name} (hq : ∀ n ∈ q, Good n) (hi : Walk z.x.s.fs.inodes rootIno q P.file.i) :
    ∃ s1, reboot (diskOf b z.x.s.fs) = some s1 ∧ (There s1 P.lock ↔ z.x.holders ≠ []) ∧ Walk s1.fs.inodes rootIno q P.file.i ∧
      ∀ k, k < P.file.count → Records.record P.file s1 k = Records.after (Records.record P.file y.x.s) (acts z.log) k := by
  have ok := hr.ok (AnyLock.There.ne_nil h.lock.missing) h.ok
  obtain ⟨s1, e, ht⟩ := crash_paths_partial hs
  refine ⟨s1, e, ?_, (ht q hq _).1.2 hi, ?_⟩
  · have h1 : There s1 P.lock ↔ There z.x.s P.lock := exists_congr fun k => (ht P.lock ok.lock.good k).1
    rw [h1]
    rcases ok.lock.one with ⟨h2, h3⟩ | ⟨c, h2, h3⟩ <;> rw [h2] <;> simp [h3]
  · intro k hk
    have hb : bytes s1 P.file.i = bytes z.x.s P.file.i := by
      obtain ⟨nd, nd', a, -, -, -, -, -, -, hd⟩ := (ht q hq _).2 hi
      obtain ⟨nd2, g1, g2, -⟩ := ok.recs.file
      have := hd (by rw [show nd = nd2 from Option.some.inj (a.symm.trans g1)]; exact g2)
      simp only [bytes, this]
    rw [← ok.recs.now k hk]
    simp only [Records.record, hb]

end Verif.Txn
