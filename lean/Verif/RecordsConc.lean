import Verif.RecordsProps
import Verif.DataConcProps

/-!
# A file of records used by many threads at once (property C113)

The same file of records, with the calls of all threads of all processes running at the same time, lock by lock (`Verif.DataConc`): what the threads are
told is what a table would tell them that handles one request at a time.
-/

namespace Verif.Records
open Verif.Fs Verif.Kernel Verif.DataConc

/-! ## Specification: a table that handles requests one at a time -/

inductive Req
  | put (k : Nat) (d : List UInt8)
  | get (k : Nat)

/-- What is seen of a table: requests, and answers with a number and the bytes handed back. -/
inductive Seen
  | ask (t : Nat) (r : Req)
  | told (t : Nat) (n : Ret) (d : List UInt8)

/-- The records, and for every thread its request and, once it has been handled, the answer. -/
structure Table where
  row : Nat → List UInt8
  pend : Nat → Option (Req × Option (Ret × List UInt8))

/-- A request is handled: the record is replaced, or it is handed out; the answer is the size of a record. -/
def Table.handle (size : Nat) (T : Table) (t : Nat) : Req → Table
  | .put k d => { row := fun j => if j = k then d else T.row j, pend := upd T.pend t (some (.put k d, some (.ok size, []))) }
  | .get k => { row := T.row, pend := upd T.pend t (some (.get k, some (.ok size, T.row k))) }

/-- What a table of records can do: take a request of a thread that has none, handle one, at some moment before it is answered, and answer. -/
inductive Table.Runs (size : Nat) : Table → List Seen → Table → Prop
  | refl (T : Table) : Runs size T [] T
  | ask {T U : Table} {t : Nat} {r : Req} {es : List Seen} : T.pend t = none →
      Runs size { T with pend := upd T.pend t (some (r, none)) } es U → Runs size T (.ask t r :: es) U
  | handle {T U : Table} {t : Nat} {r : Req} {es : List Seen} : T.pend t = some (r, none) →
      Runs size (T.handle size t r) es U → Runs size T es U
  | told {T U : Table} {t : Nat} {r : Req} {n : Ret} {d : List UInt8} {es : List Seen} : T.pend t = some (r, some (n, d)) →
      Runs size { T with pend := upd T.pend t none } es U → Runs size T (.told t n d :: es) U

/-- The call by which a process makes a request. -/
inductive Asks (P : Plan) : Job → Req → Prop
  | put {c k : Nat} {d : List UInt8} : c ∈ P.users → k < P.count → d.length = P.size →
      Asks P ⟨c, P.fd c, .pwrite d (P.size * k : Nat)⟩ (.put k d)
  | get {c k : Nat} : c ∈ P.users → k < P.count → Asks P ⟨c, P.fd c, .pread P.size (P.size * k : Nat)⟩ (.get k)

/-- What is seen of the system, as what is seen of a table. -/
inductive Views (P : Plan) : List Ev → List Seen → Prop
  | nil : Views P [] []
  | call {t : Nat} {j : Job} {r : Req} {es : List Ev} {vs : List Seen} : Asks P j r → Views P es vs → Views P (.call t j :: es) (.ask t r :: vs)
  | ret {t : Nat} {o : Out} {es : List Ev} {vs : List Seen} : Views P es vs → Views P (.ret t o :: es) (.told t o.ret o.data :: vs)

/-! ## Lemmas -/

/-- A call under way and a request under way. -/
def Pend (P : Plan) : Option (Job × Option Out) → Option (Req × Option (Ret × List UInt8)) → Prop
  | none, none => True
  | some (j, none), some (r, none) => Asks P j r
  | some (_, some o), some (_, some (n, d)) => n = o.ret ∧ d = o.data
  | _, _ => False

structure Like (P : Plan) (t : Nat → List UInt8) (D : List UInt8) (A : Abs) (T : Table) : Prop where
  ok : ∃ es, Ok P t D ⟨A.s, es⟩
  rows : ∀ k, k < P.count → T.row k = record P A.s k
  pend : ∀ u, Pend P (A.pend u) (T.pend u)

theorem pend_upd {P : Plan} {a : Nat → Option (Job × Option Out)} {b : Nat → Option (Req × Option (Ret × List UInt8))} (h : ∀ u, Pend P (a u) (b u))
    (t : Nat) {x : Option (Job × Option Out)} {y : Option (Req × Option (Ret × List UInt8))} (hxy : Pend P x y) (u : Nat) :
    Pend P (upd a t x u) (upd b t y u) := by
  by_cases e : u = t
  · subst e; rw [upd_same, upd_same]; exact hxy
  · rw [upd_ne _ _ e, upd_ne _ _ e]; exact h u

theorem pwrite_data {s : State} {c fd i pos size off : Nat} {f : BitVec 32} {d : List UInt8} (h : Reach s) (ho : OpenOn s c fd i pos f)
    (hf : IsFile s i size) (hm : f &&& 3#32 ≠ 0#32) : (Kernel.step s c (.pwrite fd d off)).2.data = [] := by
  obtain ⟨nd, h1, h2, -⟩ := id hf
  obtain ⟨fs', e0, -⟩ := writeIno_written h.inv ho hf h1 off d
  obtain ⟨cg, hc, hg, -⟩ := ho.get
  have hw : isRdonly f = false := by
    unfold isRdonly oRDWRFLAGS; simpa using hm
  simp only [Kernel.step, hc, Kernel.pwrite, hg, hw, Bool.false_eq_true, if_false, h1, h2,
    if_neg (by omega : ¬ (off : Int) < 0), Int.toNat_natCast, e0, Out.r]

theorem Like.handle {P : Plan} {t : Nat → List UInt8} {D : List UInt8} {A : Abs} {T : Table} (h : Like P t D A T) {u : Nat} {j : Job}
    {r : Req} (ha : Asks P j r) :
    Like P t D ⟨(Kernel.step A.s j.cage (j.call.op j.fd)).1, upd A.pend u (some (j, some (Kernel.step A.s j.cage (j.call.op j.fd)).2))⟩
      (T.handle P.size u r) := by
  obtain ⟨⟨es, ok⟩, hrec, hp⟩ := h
  cases ha with
  | @get c k hc hk =>
    obtain ⟨e1, e2, e3⟩ := ok.got hc hk
    simp only [Call.op, Table.handle]
    dsimp only at e1 e2 e3
    refine ⟨⟨es, ?_⟩, ?_, pend_upd hp u ?_⟩
    · rw [e1]; exact ok
    · rw [e1]; exact hrec
    · simp only [Pend]; rw [e2, e3]; exact ⟨rfl, hrec k hk⟩
  | @put c k d hc hk hd =>
    obtain ⟨ok', e3⟩ := ok.put ⟨hc, hk, hd⟩
    obtain ⟨pos, f, o, m⟩ := ok.open_ c hc
    have e4 := pwrite_data ok.reach (off := P.size * k) (d := d) o ok.file (by rw [m]; decide)
    simp only [Call.op, Table.handle]
    dsimp only at e3 e4
    refine ⟨⟨_, ok'⟩, ?_, pend_upd hp u ?_⟩
    · intro j hj
      have := ok'.now j hj
      simp only [next, after_append, after] at this
      dsimp only
      rw [this, hrec j hj]
      split
      · rfl
      · exact ok.now j hj
    · simp only [Pend]; rw [e3, e4]; exact ⟨rfl, rfl⟩

theorem Like.runs {P : Plan} {t : Nat → List UInt8} {D : List UInt8} {A B : Abs} {es : List Ev} (hr : A.Runs es B) :
    ∀ {T : Table}, Like P t D A T → (∀ u j, Ev.call u j ∈ es → ∃ r, Asks P j r) →
      ∃ vs U, Views P es vs ∧ T.Runs P.size vs U ∧ Like P t D B U := by
  induction hr with
  | refl A => exact fun {T} h _ => ⟨[], T, .nil, .refl T, h⟩
  | @call A B u j es hp _ ih =>
    intro T h hj
    obtain ⟨r, ha⟩ := hj u j (by simp)
    have hT : T.pend u = none := by
      have := h.pend u
      rw [hp] at this
      cases e : T.pend u with
      | none => rfl
      | some x => rw [e] at this; exact this.elim
    obtain ⟨vs, U, v1, v2, v3⟩ := ih (T := { T with pend := upd T.pend u (some (r, none)) }) ⟨h.ok, h.rows, pend_upd h.pend u ha⟩
      (fun v i hm => hj v i (by simp [hm]))
    exact ⟨_, U, .call ha v1, .ask hT v2, v3⟩
  | @commit A B u j es hp _ ih =>
    intro T h hj
    have := h.pend u
    rw [hp] at this
    cases e : T.pend u with
    | none => rw [e] at this; exact this.elim
    | some x =>
      obtain ⟨r, _ | ⟨n, d⟩⟩ := x
      · rw [e] at this
        obtain ⟨vs, U, v1, v2, v3⟩ := ih (h.handle (u := u) this) hj
        exact ⟨vs, U, v1, .handle e v2, v3⟩
      · rw [e] at this; exact this.elim
  | @ret A B u j o es hp _ ih =>
    intro T h hj
    have := h.pend u
    rw [hp] at this
    cases e : T.pend u with
    | none => rw [e] at this; exact this.elim
    | some x =>
      obtain ⟨r, _ | ⟨n, d⟩⟩ := x
      · rw [e] at this; exact this.elim
      · rw [e] at this
        obtain ⟨rfl, rfl⟩ := this
        obtain ⟨vs, U, v1, v2, v3⟩ := ih (T := { T with pend := upd T.pend u none }) ⟨h.ok, h.rows, pend_upd h.pend u trivial⟩
          (fun v i hm => hj v i (by simp [hm]))
        exact ⟨_, U, .ret v1, .told e v2, v3⟩

/-! ## Theorems -/

/-- C113.  **Any number of threads of any number of processes read and write records at the same time, in any schedule: what they are told is what a
table tells them that handles one request at a time, each at a moment between the call and the answer.**  When nobody is calling, the file holds the
records of that table. -/
theorem records_linearizable {P : Plan} {s : State} (h : Start P ⟨s, []⟩) (as : List Act) (hj : ∀ t j, Act.start t j ∈ as → ∃ r, Asks P j r) :
    ∃ vs U, Views P (trace (rest s) as) vs ∧ Table.Runs P.size ⟨record P s, fun _ => none⟩ vs U ∧
      (AtRest (run (rest s) as) → ∀ k, k < P.count → record P (run (rest s) as).s k = U.row k) := by
  obtain ⟨B, h1, h2⟩ := linearizable s as
  have h0 : Like P (record P s) (bytes s P.i) ⟨s, fun _ => none⟩ ⟨record P s, fun _ => none⟩ := ⟨⟨[], h.ok⟩, fun _ _ => rfl, fun _ => trivial⟩
  obtain ⟨vs, U, v1, v2, v3⟩ := Like.runs h1 h0 (fun u j hm => hj u j (trace_call hm))
  refine ⟨vs, U, v1, v2, fun hr k hk => ?_⟩
  rw [v3.rows k hk]
  have hb : bytes (run (rest s) as).s P.i = bytes B.s P.i := by
    have := congrArg File.disk ((h2 hr).1.file P.i)
    simp only [DataConc.file] at this
    simp only [bytes, this]
  simp only [record, hb]

end Verif.Records
