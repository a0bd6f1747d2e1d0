import Verif.DataConcProgress
import Verif.IoProps

/-!
# Concurrent calls on open files: the properties

C67.  However the threads are scheduled, calls on open files behave as if each ran at once, alone.
-/

namespace Verif.DataConc
open Verif.Fs Verif.Kernel

/-- C67.  The calls and returns of every schedule are those of a run in which every call takes effect at one moment between its
begin and its end; when nobody is calling, the memory is the one of that run, but for the log. -/
theorem linearizable (s : State) (as : List Act) :
    ∃ B, Abs.Runs ⟨s, fun _ => none⟩ (trace (rest s) as) B ∧
      (AtRest (run (rest s) as) → SameButLog (run (rest s) as).s B.s ∧ ∀ t, B.pend t = none) := by
  obtain ⟨B, h1, h2⟩ := (Rel.rest s).run as
  refine ⟨B, h1, fun hr => ⟨same_of h2.frame ?_ ?_, ?_⟩⟩
  · exact fun c fd => h2.slot c fd (fun t call i hj _ => by rw [hr t] at hj; cases hj)
  · exact fun i => h2.file i (fun t j hj _ => by rw [hr t] at hj; cases hj)
  · intro t
    have ht := h2.thr t
    rw [hr t] at ht
    cases hp : (run (rest s) as).pc t <;> rw [hp] at ht
    · exact ht.2
    all_goals first
      | (obtain ⟨_, h1, _⟩ := ht; cases h1; done)
      | (obtain ⟨_, _, h1, _⟩ := ht; cases h1; done)

/-! ## The order of the calls -/

/-- A sequence of calls made one after the other, with their answers. -/
def InOrder : State → List (Nat × Job × Out) → State → Prop
  | s, [], s' => s' = s
  | s, (_, j, o) :: h, s' => (Kernel.step s j.cage (j.call.op j.fd)).2 = o ∧ InOrder (Kernel.step s j.cage (j.call.op j.fd)).1 h s'

/-- The calls of a thread, in their order. -/
def callsOf (t : Nat) : List Ev → List Job
  | [] => []
  | .call u j :: es => if u = t then j :: callsOf t es else callsOf t es
  | .ret _ _ :: es => callsOf t es

/-- The answers that a thread got, in their order. -/
def answersOf (t : Nat) : List Ev → List Out
  | [] => []
  | .ret u o :: es => if u = t then o :: answersOf t es else answersOf t es
  | .call _ _ :: es => answersOf t es

/-- The part of a sequence that is of one thread. -/
def ofThread (t : Nat) (h : List (Nat × Job × Out)) : List (Nat × Job × Out) := h.filter (fun x => x.1 == t)

/-- A call that has not taken effect. -/
def Abs.waiting (A : Abs) (t : Nat) : List Job := match A.pend t with | some (j, none) => [j] | _ => []

/-- An answer that has not been returned. -/
def Abs.ready (A : Abs) (t : Nat) : List Out := match A.pend t with | some (_, some o) => [o] | _ => []

theorem Abs.Runs.order {A B : Abs} {es : List Ev} (h : A.Runs es B) : ∃ l, InOrder A.s l B.s ∧
    ∀ t, A.waiting t ++ callsOf t es = (ofThread t l).map (fun x => x.2.1) ++ B.waiting t ∧
      A.ready t ++ (ofThread t l).map (fun x => x.2.2) = answersOf t es ++ B.ready t := by
  induction h with
  | refl A => exact ⟨[], rfl, fun t => ⟨by simp [callsOf, ofThread], by simp [answersOf, ofThread]⟩⟩
  | @call A B t j es hp _ ih =>
    obtain ⟨l, h1, h2⟩ := ih
    refine ⟨l, h1, fun u => ⟨?_, ?_⟩⟩
    · have := (h2 u).1
      by_cases e : u = t
      · subst e
        simp only [Abs.waiting, upd_same] at this
        simp only [Abs.waiting, hp, callsOf, if_true]
        exact this
      · simp only [Abs.waiting, upd_ne _ _ e] at this
        simp only [Abs.waiting, callsOf, if_neg (Ne.symm e)]
        exact this
    · have := (h2 u).2
      by_cases e : u = t
      · subst e
        simp only [Abs.ready, upd_same] at this
        simp only [Abs.ready, hp, answersOf]
        exact this
      · simp only [Abs.ready, upd_ne _ _ e] at this
        exact this
  | @commit A B t j es hp _ ih =>
    obtain ⟨l, h1, h2⟩ := ih
    refine ⟨(t, j, (Kernel.step A.s j.cage (j.call.op j.fd)).2) :: l, ⟨rfl, h1⟩, fun u => ⟨?_, ?_⟩⟩
    · have := (h2 u).1
      by_cases e : u = t
      · subst e
        simp only [Abs.waiting, upd_same] at this
        simp only [Abs.waiting, hp, ofThread, List.filter_cons, beq_self_eq_true, if_true, List.map_cons, List.cons_append,
          List.nil_append]
        simpa [Abs.waiting, ofThread] using this
      · simp only [Abs.waiting, upd_ne _ _ e] at this
        have e' : (t == u) = false := by simp [Ne.symm e]
        simp only [Abs.waiting, ofThread, List.filter_cons, e', Bool.false_eq_true, if_false]
        exact this
    · have := (h2 u).2
      by_cases e : u = t
      · subst e
        simp only [Abs.ready, upd_same] at this
        simp only [Abs.ready, hp, ofThread, List.filter_cons, beq_self_eq_true, if_true, List.map_cons, List.nil_append]
        exact this
      · simp only [Abs.ready, upd_ne _ _ e] at this
        have e' : (t == u) = false := by simp [Ne.symm e]
        simp only [Abs.ready, ofThread, List.filter_cons, e', Bool.false_eq_true, if_false]
        exact this
  | @ret A B t j o es hp _ ih =>
    obtain ⟨l, h1, h2⟩ := ih
    refine ⟨l, h1, fun u => ⟨?_, ?_⟩⟩
    · have := (h2 u).1
      by_cases e : u = t
      · subst e
        simp only [Abs.waiting, upd_same] at this
        simp only [Abs.waiting, hp, callsOf]
        exact this
      · simp only [Abs.waiting, upd_ne _ _ e] at this
        exact this
    · have := (h2 u).2
      by_cases e : u = t
      · subst e
        simp only [Abs.ready, upd_same, List.nil_append] at this
        simp only [Abs.ready, hp, answersOf, if_true, List.cons_append, List.nil_append, this]
      · simp only [Abs.ready, upd_ne _ _ e] at this
        simp only [Abs.ready, answersOf, if_neg (Ne.symm e)]
        exact this

/-- C67.  When nobody is calling any more, there is an order of all the calls that were made, the calls of every thread in the
order in which it made them, such that making the calls one after the other gives every thread the answers it got and
leaves the same memory, but for the log. -/
theorem one_order (s : State) (as : List Act) (hr : AtRest (run (rest s) as)) :
    ∃ l s', InOrder s l s' ∧ SameButLog (run (rest s) as).s s' ∧
      ∀ t, (ofThread t l).map (fun x => x.2.1) = callsOf t (trace (rest s) as) ∧
        (ofThread t l).map (fun x => x.2.2) = answersOf t (trace (rest s) as) := by
  obtain ⟨B, h1, h2⟩ := linearizable s as
  obtain ⟨h3, h4⟩ := h2 hr
  obtain ⟨l, h5, h6⟩ := h1.order
  refine ⟨l, B.s, h5, h3, fun t => ?_⟩
  have := h6 t
  simp only [Abs.waiting, Abs.ready, h4 t, List.nil_append, List.append_nil] at this
  exact ⟨this.1.symm, this.2⟩

/-! ## What the state is like at rest -/

theorem tame_call (s : State) (c fd : Nat) (call : Call) : Tame s c (call.op fd) := by
  unfold Tame
  split
  · trivial
  · cases call <;> trivial

theorem InOrder.reach {s s' : State} {l : List (Nat × Job × Out)} (h : InOrder s l s') (hr : Reach s)
    (hp : ∀ x, x ∈ l → x.2.2.ret ≠ .panic) : Reach s' := by
  induction l generalizing s with
  | nil => cases h; exact hr
  | cons x l ih =>
    obtain ⟨t, j, o⟩ := x
    obtain ⟨h1, h2⟩ := h
    refine ih h2 (Reach.step _ _ hr (tame_call _ _ _ _) ?_) (fun x hx => hp x (List.mem_cons_of_mem _ hx))
    rw [h1]
    exact hp (t, j, o) (List.mem_cons_self ..)

theorem mem_answers {t : Nat} {o : Out} {es : List Ev} : o ∈ answersOf t es ↔ Ev.ret t o ∈ es := by
  induction es with
  | nil => simp [answersOf]
  | cons e es ih =>
    cases e with
    | call u j => simp [answersOf, ih]
    | ret u o' =>
      simp only [answersOf]
      split
      · rename_i e; subst e; simp [ih]
      · rename_i e; simp [ih, Ne.symm e]

theorem mem_calls {t : Nat} {j : Job} {es : List Ev} : j ∈ callsOf t es ↔ Ev.call t j ∈ es := by
  induction es with
  | nil => simp [callsOf]
  | cons e es ih =>
    cases e with
    | ret u o => simp [callsOf, ih]
    | call u j' =>
      simp only [callsOf]
      split
      · rename_i e; subst e; simp [ih]
      · rename_i e; simp [ih, Ne.symm e]

/-- A call that is seen was started. -/
theorem trace_call {C : Conc} {as : List Act} {t : Nat} {j : Job} (h : Ev.call t j ∈ trace C as) : Act.start t j ∈ as := by
  induction as generalizing C with
  | nil => simp [trace] at h
  | cons a as ih =>
    simp only [trace, List.mem_append] at h
    rcases h with h | h
    · cases a with
      | start u k =>
        simp only [observe] at h
        split at h
        · cases h
        · simp only [List.mem_singleton, Ev.call.injEq] at h
          rw [h.1, h.2]; exact List.mem_cons_self ..
      | go u =>
        simp only [observe] at h
        split at h
        · simp at h
        · cases h
    · exact List.mem_cons_of_mem _ (ih h)

/-- C67.  If no call panicked, the state at rest is one that calls made one after the other lead to, but for the log: all that is
proved of those states holds of it. -/
theorem sound_at_rest {s : State} (hs : Reach s) (as : List Act) (hr : AtRest (run (rest s) as))
    (hp : ∀ t o, Ev.ret t o ∈ trace (rest s) as → o.ret ≠ .panic) : ∃ s', Reach s' ∧ SameButLog (run (rest s) as).s s' := by
  obtain ⟨l, s', h1, h2, h3⟩ := one_order s as hr
  refine ⟨s', h1.reach hs (fun x hx => ?_), h2⟩
  refine hp x.1 _ (mem_answers.1 ?_)
  rw [← (h3 x.1).2]
  exact List.mem_map.2 ⟨x, by simp [ofThread, hx], rfl⟩

/-! ## Writing through one descriptor -/

/-- The data of a call of write. -/
def Call.data : Call → List UInt8
  | .write data => data
  | _ => []

theorem written_end {old data new : List UInt8} (h : Written old old.length data new) : new = old ++ data := by
  refine h.unique ⟨?_, ?_, ?_, ?_⟩
  · intro k hk; rw [List.getElem?_append_right (by omega)]; congr 1; omega
  · intro k hk hk'; rw [List.getElem?_append_left hk']
  · intro k hk hk'; omega
  · simp

theorem InOrder.appends {s s' : State} {l : List (Nat × Job × Out)} {c fd i size : Nat} {f : BitVec 32} (h : InOrder s l s')
    (hs : Reach s) (ho : OpenOn s c fd i size f) (hf : IsFile s i size) (hm : f &&& 3#32 ≠ 0#32)
    (hw : ∀ x, x ∈ l → ∃ data, x.2.1 = ⟨c, fd, .write data⟩) :
    bytes s' i = bytes s i ++ (l.map (fun x => x.2.1.call.data)).flatten ∧
    IsFile s' i (size + (l.map (fun x => x.2.1.call.data)).flatten.length) ∧
    (∀ x, x ∈ l → x.2.2.ret = .ok (toI32 x.2.1.call.data.length)) ∧
    ∀ j, j ≠ i → bytes s' j = bytes s j := by
  induction l generalizing s size with
  | nil => cases h; exact ⟨by simp, by simpa using hf, by simp, fun _ _ => rfl⟩
  | cons x l ih =>
    obtain ⟨t, j, o⟩ := x
    obtain ⟨h1, h2⟩ := h
    obtain ⟨data, hj⟩ := hw (t, j, o) (List.mem_cons_self ..)
    simp only at hj
    subst hj
    obtain ⟨w1, w2, w3, w4⟩ := write_writes (data := data) hs ho hf hm
    simp only [Call.op] at h1 h2
    have hlen : (bytes s i).length = size := (hs.inv.content hf).2
    rw [← hlen] at w1
    have hb := written_end w1
    have hr' : Reach (Kernel.step s c (.write fd data)).1 := Reach.step _ _ hs (tame_call s c fd (.write data)) (by rw [w4]; simp)
    have hf' : IsFile (Kernel.step s c (.write fd data)).1 i (size + data.length) := by
      obtain ⟨nd, n1, n2, n3⟩ := hf
      exact ⟨_, w2.2 nd n1, n2, by simp only; omega⟩
    obtain ⟨i1, i2, i3, i4⟩ := ih h2 hr' w3 hf' (fun x hx => hw x (List.mem_cons_of_mem _ hx))
    refine ⟨?_, ?_, ?_, ?_⟩
    · rw [i1, hb]; simp [Call.data]
    · have : size + (List.map (fun x => x.2.1.call.data) ((t, (⟨c, fd, .write data⟩ : Job), o) :: l)).flatten.length =
          size + data.length + (List.map (fun x => x.2.1.call.data) l).flatten.length := by
        simp only [List.map_cons, List.flatten_cons, List.length_append, Call.data]; omega
      rw [this]; exact i2
    · intro x hx
      rcases List.mem_cons.1 hx with rfl | hx
      · simp only [Call.data]; rw [← h1]; exact w4
      · exact i3 x hx
    · intro k hk
      rw [i4 k hk, (w2.1 k hk).1]

/-- C67.  Any number of threads write through one descriptor that stands at the end of its file.  When they are done, the file is
what it was, followed by all that was written: nothing is lost or overwritten, the pieces are in some order, those of each thread
in the order in which it wrote them; every write returned its length, and no other file changed. -/
theorem shared_descriptor {s : State} (hs : Reach s) {c fd i size : Nat} {f : BitVec 32} (ho : OpenOn s c fd i size f)
    (hf : IsFile s i size) (hm : f &&& 3#32 ≠ 0#32) (as : List Act)
    (hw : ∀ t j, Act.start t j ∈ as → ∃ data, j = ⟨c, fd, .write data⟩) (hr : AtRest (run (rest s) as)) :
    ∃ pieces : List (Nat × List UInt8),
      bytes (run (rest s) as).s i = bytes s i ++ (pieces.map Prod.snd).flatten ∧
      IsFile (run (rest s) as).s i (size + (pieces.map Prod.snd).flatten.length) ∧
      (∀ t, (pieces.filter (fun x => x.1 == t)).map Prod.snd = (callsOf t (trace (rest s) as)).map (fun j => j.call.data)) ∧
      (∀ t, (answersOf t (trace (rest s) as)).map Out.ret =
        (callsOf t (trace (rest s) as)).map (fun j => .ok (toI32 j.call.data.length))) ∧
      ∀ j, j ≠ i → bytes (run (rest s) as).s j = bytes s j := by
  obtain ⟨l, s', h1, h2, h3⟩ := one_order s as hr
  have hl : ∀ x, x ∈ l → ∃ data, x.2.1 = ⟨c, fd, .write data⟩ := by
    intro x hx
    refine hw x.1 _ (trace_call (C := rest s) (mem_calls.1 ?_))
    rw [← (h3 x.1).1]
    exact List.mem_map.2 ⟨x, by simp [ofThread, hx], rfl⟩
  obtain ⟨g1, g2, g3, g4⟩ := h1.appends hs ho hf hm hl
  have hb : ∀ k, bytes (run (rest s) as).s k = bytes s' k := by
    intro k
    have := congrArg File.disk (h2.file k)
    simp only [DataConc.file] at this
    simp only [bytes, this]
  have hino : (run (rest s) as).s.fs.inodes = s'.fs.inodes := by
    funext k
    exact congrArg File.ino (h2.file k)
  refine ⟨l.map (fun x => (x.1, x.2.1.call.data)), ?_, ?_, ?_, ?_, ?_⟩
  · rw [hb, g1]; simp [Function.comp_def]
  · unfold IsFile at g2 ⊢
    rw [hino]
    simpa [Function.comp_def] using g2
  · intro t
    rw [← (h3 t).1]
    simp [ofThread, List.filter_map, Function.comp_def]
  · intro t
    rw [← (h3 t).1, ← (h3 t).2, List.map_map, List.map_map]
    refine List.map_congr_left (fun x hx => ?_)
    exact g3 x (List.mem_filter.1 hx).1
  · intro j hj
    rw [hb, g4 j hj]

/-! ## Reading while others write -/

theorem InOrder.whole_blocks {s s' : State} {l : List (Nat × Job × Out)} {c i n : Nat} {old : List UInt8}
    {ok : Nat → Prop} {blocks : List UInt8 → Prop} (h : InOrder s l s') (hs : Reach s) (hf : IsFile s i n)
    (hok : ∀ fd, ok fd → ∃ pos f, OpenOn s c fd i pos f ∧ f &&& 3#32 = 2#32) (hb : bytes s i = old ∨ blocks (bytes s i))
    (hn : n < 2147483648)
    (hl : ∀ x, x ∈ l → ∃ fd, ok fd ∧ (x.2.1 = ⟨c, fd, .pread n 0⟩ ∨
      ∃ b, blocks b ∧ b.length = n ∧ x.2.1 = ⟨c, fd, .pwrite b 0⟩)) :
    (∀ x, x ∈ l → ∀ fd, x.2.1 = ⟨c, fd, .pread n 0⟩ → x.2.2.ret = .ok n ∧ (x.2.2.data = old ∨ blocks x.2.2.data)) ∧
      (bytes s' i = old ∨ blocks (bytes s' i)) := by
  induction l generalizing s with
  | nil => cases h; exact ⟨by simp, hb⟩
  | cons x l ih =>
    obtain ⟨t, j, o⟩ := x
    obtain ⟨h1, h2⟩ := h
    obtain ⟨fd, hfd, hj⟩ := hl (t, j, o) (List.mem_cons_self ..)
    obtain ⟨pos, f, ho, hfl⟩ := hok fd hfd
    have hlen : (bytes s i).length = n := (hs.inv.content hf).2
    have hl' := fun x hx => hl x (List.mem_cons_of_mem _ hx)
    rcases hj with hj | ⟨b, hb1, hb2, hj⟩ <;> simp only at hj <;> subst hj <;> simp only [Call.op] at h1 h2
    · obtain ⟨r1, r2, r3⟩ := pread_returns_partial (n := n) (off := 0) hs ho hf (by rw [hfl]; decide) (Nat.zero_le _)
      have e1 : min n (n - 0) = n := by omega
      have e2 : ((bytes s i).drop 0).take n = bytes s i := by rw [List.drop_zero, ← hlen, List.take_length]
      rw [e2] at r1
      rw [e1] at r2
      have hz : ((0 : Nat) : Int) = 0 := rfl
      rw [hz] at r1 r2 r3
      rw [r3] at h2
      obtain ⟨i1, i2⟩ := ih h2 hs hf hok hb hl'
      refine ⟨fun x hx fd' hx' => ?_, i2⟩
      rcases List.mem_cons.1 hx with rfl | hx
      · simp only
        rw [← h1, r1]
        exact ⟨r2 hn, hb⟩
      · exact i1 x hx fd' hx'
    · obtain ⟨w1, w2, w3, w4⟩ := pwrite_writes (off := 0) (data := b) hs ho hf (by rw [hfl]; decide)
      have hz : ((0 : Nat) : Int) = 0 := rfl
      rw [hz] at w1 w2 w3 w4
      have hnew : bytes (Kernel.step s c (.pwrite fd b 0)).1 i = b := by
        refine w1.unique ⟨?_, ?_, ?_, ?_⟩
        · intro k _; rw [Nat.zero_add]
        · intro k hk hk'; omega
        · intro k hk hk'; omega
        · omega
      have hf' : IsFile (Kernel.step s c (.pwrite fd b 0)).1 i n := by
        obtain ⟨nd, n1, n2, n3⟩ := hf
        exact ⟨_, w2.2 nd n1, n2, by simp only; omega⟩
      have hr' : Reach (Kernel.step s c (.pwrite fd b 0)).1 := Reach.step _ _ hs (tame_call s c fd (.pwrite b 0)) (by rw [w4]; simp)
      obtain ⟨i1, i2⟩ := ih h2 hr' hf' (fun fd' h' => by
        obtain ⟨pos, f, ⟨o1, cg, o2, o3⟩, o4⟩ := hok fd' h'
        exact ⟨pos, f, ⟨o1, cg, by rw [w3]; exact o2, o3⟩, o4⟩) (.inr (by rw [hnew]; exact hb1)) hl'
      refine ⟨fun x hx fd' hx' => ?_, i2⟩
      rcases List.mem_cons.1 hx with rfl | hx
      · simp at hx'
      · exact i1 x hx fd' hx'

/-- C67.  Threads overwrite a file block by block, each block as long as the file, while others read all of it, through any
descriptors of a cage.  Every read returns the file as it was, or one of the blocks, whole: never a mixture. -/
theorem no_torn_reads {s : State} (hs : Reach s) {c i n : Nat} (hf : IsFile s i n) (hn : n < 2147483648) (as : List Act)
    (hj : ∀ t j, Act.start t j ∈ as → ∃ fd, (∃ pos f, OpenOn s c fd i pos f ∧ f &&& 3#32 = 2#32) ∧
      (j = ⟨c, fd, .pread n 0⟩ ∨ ∃ b : List UInt8, b.length = n ∧ j = ⟨c, fd, .pwrite b 0⟩))
    {r : Nat} (hread : ∀ j, Act.start r j ∈ as → ∃ fd, j = ⟨c, fd, .pread n 0⟩) {o : Out} (ho : Ev.ret r o ∈ trace (rest s) as) :
    o.ret = .ok n ∧ (o.data = bytes s i ∨ ∃ t fd, Act.start t ⟨c, fd, .pwrite o.data 0⟩ ∈ as) := by
  obtain ⟨B, h1, -⟩ := linearizable s as
  obtain ⟨l, h2, h3⟩ := h1.order
  have hcall : ∀ x, x ∈ l → Act.start x.1 x.2.1 ∈ as := by
    intro x hx
    refine trace_call (C := rest s) (mem_calls.1 ?_)
    have := (h3 x.1).1
    simp only [Abs.waiting, List.nil_append] at this
    rw [this]
    exact List.mem_append_left _ (List.mem_map.2 ⟨x, by simp [ofThread, hx], rfl⟩)
  have hx : ∃ x, x ∈ l ∧ x.1 = r ∧ x.2.2 = o := by
    have := (h3 r).2
    simp only [Abs.ready, List.nil_append] at this
    have hm : o ∈ (ofThread r l).map (fun x => x.2.2) := by
      rw [this]; exact List.mem_append_left _ (mem_answers.2 ho)
    obtain ⟨x, x1, x2⟩ := List.mem_map.1 hm
    simp only [ofThread, List.mem_filter, beq_iff_eq] at x1
    exact ⟨x, x1.1, x1.2, x2⟩
  obtain ⟨x, x1, x2, x3⟩ := hx
  have hxr := hcall x x1
  rw [x2] at hxr
  obtain ⟨fd, hfd⟩ := hread _ hxr
  have key := (InOrder.whole_blocks (old := bytes s i) (c := c) (n := n) (ok := fun fd => ∃ pos f, OpenOn s c fd i pos f ∧ f &&& 3#32 = 2#32)
    (blocks := fun b => ∃ t fd, Act.start t ⟨c, fd, .pwrite b 0⟩ ∈ as) h2 hs hf (fun fd h => h) (.inl rfl) hn (fun y hy => by
      have hs' := hcall y hy
      obtain ⟨fd, f1, f2⟩ := hj _ _ hs'
      refine ⟨fd, f1, ?_⟩
      rcases f2 with f2 | ⟨b, f2, f3⟩
      · exact .inl f2
      · refine .inr ⟨b, ⟨y.1, fd, ?_⟩, f2, f3⟩
        rw [← f3]; exact hs')).1 x x1 fd hfd
  rw [x3] at key
  exact key

/-! ## Nobody waits for ever -/

/-- All calls that a schedule begins are on files, streams or epoll instances, or on numbers that are not open. -/
def OnFiles (s : State) (as : List Act) : Prop := ∀ t j, Act.start t j ∈ as → Quiet (slot s j.cage j.fd)

theorem OnFiles.plain {s : State} {as : List Act} (h : OnFiles s as) :
    Plain (fun c fd => Quiet (slot s c fd)) (run (rest s) as) :=
  Plain.run (C := rest s) ⟨fun _ _ h => h, fun t j hj => by cases hj⟩ h

/-- C67.  Whatever the threads have done, as long as somebody is calling, somebody can go on: no deadlock. -/
theorem never_stuck {s : State} {as : List Act} (hs : OnFiles s as) (hr : ¬ AtRest (run (rest s) as)) :
    ∃ t, (go (run (rest s) as) t).isSome := by
  obtain ⟨B, -, h⟩ := (Rel.rest s).run as
  obtain ⟨t, ht⟩ : ∃ t, (run (rest s) as).job t ≠ none := Classical.not_forall.1 hr
  obtain ⟨j, hj⟩ := Option.ne_none_iff_exists'.1 ht
  exact h.goes hs.plain hj

/-- C67.  The calls come to their end however the threads are picked: no more than eleven moves for every call that was begun
can be made, and once no move can be made all calls have returned. -/
theorem all_return {s : State} {as : List Act} (hs : OnFiles s as) (us : List Nat) (hu : Possible (run (rest s) as) us) :
    us.length ≤ 11 * (starters as).length ∧
      ((∀ t, go (run (rest s) (as ++ us.map Act.go)) t = none) → AtRest (run (rest s) (as ++ us.map Act.go))) := by
  refine ⟨Nat.le_trans (Possible.few (ts := starters as) hs.plain (fun t ht => ?_) hu) (left_total _ _), ?_⟩
  · have := run_starters (C := rest s) (ts := []) (fun t ht => absurd rfl ht) as ht
    simpa using this
  · intro h
    refine Classical.byContradiction (fun hr => ?_)
    obtain ⟨t, ht⟩ := never_stuck (as := as ++ us.map Act.go) (fun t j hj => by
      rcases List.mem_append.1 hj with hj | hj
      · exact hs t j hj
      · obtain ⟨u, -, e⟩ := List.mem_map.1 hj; cases e) hr
    rw [h t] at ht
    cases ht

end Verif.DataConc
