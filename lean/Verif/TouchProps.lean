import Verif.TouchNull

/-!
# A call touches only the memory its caller handed over: C97
-/

namespace Verif.Touch
open Verif.Dispatch

theorem touches_plain {call : Nat} {ks : List Kind} (h : signature call = some ks) (w : World)
    (args : List (BitVec 64)) : touches w call args = plain w ks args (handler w call) := by
  unfold touches
  split <;> first
    | (change none = some _ at h; cases h)
    | (rw [h])

theorem touches_none {call : Nat} (h : 171 ≤ call) (w : World) (args : List (BitVec 64)) :
    touches w call args = [] := by
  have hs : signature call = none := by
    unfold signature
    split <;> first | omega | rfl
  unfold touches
  split <;> first | omega | (rw [hs])

/-- The calls with an argument of their own to follow. -/
def followed : List Nat :=
  [9, 12, 13, 15, 17, 19, 21, 22, 23, 26, 33, 34, 35, 36, 37, 38, 40, 43, 44, 46, 47, 48, 49, 57, 58,
   63, 64, 65, 66, 67, 80, 94, 125, 126, 127, 144, 145, 146, 147, 149, 150, 170]

theorem fine_rest (w : World) (call : Nat) (args : List (BitVec 64)) (hl : call < 171)
    (h : call ∉ followed) (hp : call ∉ [2, 4, 5, 6, 10, 16, 130, 131, 132, 133]) :
    Fine (gv w call args) (touches w call args) := by
  interval_cases call
  all_goals first
    | exact absurd (by decide) h
    | exact absurd (by decide) hp
    | exact fine_nil _
    | exact fine_plain (fun r h => nomatch h) (fun _ => fine_nil _)

/-- C97.  Whatever raw arguments a call is made with, whatever the memory and the system look
like, whether it succeeds or fails: every access the call makes to its caller's memory lies in one
of the pieces handed over by the arguments as the prototype reads them, and writes only where
results may go.  Left out (`Careful`), with the code violating it there: a socket address given with
a length that does not cover it, `writev` with a negative count, and `shmdt` of an address that
agrees with an attached one only in its low 32 bits. -/
theorem touches_only_given_partial (w : World) (call : Nat) (args : List (BitVec 64))
    (hc : Careful w.mem w.attached call args) :
    ∀ x ∈ touches w call args, ∃ r ∈ given w.mem w.segment w.attached call args, Inside x r := by
  show Fine (gv w call args) (touches w call args)
  by_cases hb : 171 ≤ call
  · rw [touches_none hb]; exact fine_nil _
  by_cases hp : call ∈ [2, 4, 5, 6, 10, 16, 130, 131, 132, 133]
  · exact fine_path_arms w args call hp
  by_cases h : call ∈ followed
  · simp only [followed, List.mem_cons, List.not_mem_nil, or_false] at h
    rcases h with rfl | rfl | rfl | rfl | rfl | rfl | rfl | rfl | rfl | rfl | rfl | rfl |
      rfl | rfl | rfl | rfl | rfl | rfl | rfl | rfl | rfl | rfl | rfl | rfl |
      rfl | rfl | rfl | rfl | rfl | rfl | rfl | rfl | rfl | rfl | rfl | rfl |
      rfl | rfl | rfl | rfl | rfl | rfl
    · exact (fine_struct_arms w args).1
    · exact (fine_buf_arms w args).1
    · exact (fine_buf_arms w args).2.1
    · exact (fine_int_arms w args).1
    · exact (fine_struct_arms w args).2.1
    · exact (fine_struct_arms w args).2.2.1
    · exact (fine_map_arms w args).1
    · exact (fine_map_arms w args).2.1
    · exact (fine_size_arms w args).1
    · exact (fine_struct_arms w args).2.2.2.1
    · exact fine_addr_in w args _ (by decide) hc
    · exact (fine_buf_arms w args).2.2.1
    · exact fine_sendto w args hc
    · exact (fine_buf_arms w args).2.2.2.1
    · exact fine_recvfrom w args
    · exact fine_addr_in w args _ (by decide) hc
    · exact fine_addr_out w args _ (by decide)
    · exact fine_getsockopt w args
    · exact fine_setsockopt w args
    · exact fine_select w args
    · exact (fine_size_arms w args).2.1
    · exact fine_poll w args
    · exact (fine_struct_arms w args).2.2.2.2.1
    · exact (fine_struct_arms w args).2.2.2.2.2.1
    · exact fine_epoll_wait w args
    · exact (fine_map_arms w args).2.2
    · exact fine_shmdt w args hc
    · exact fine_shmctl w args
    · exact (fine_struct_arms w args).2.2.2.2.2.2.1
    · exact (fine_struct_arms w args).2.2.2.2.2.2.2
    · exact fine_timed w args _ (by decide)
    · exact fine_timed w args _ (by decide)
    · exact (fine_size_arms w args).2.2.1
    · exact (fine_buf_arms w args).2.2.2.2.1
    · exact (fine_buf_arms w args).2.2.2.2.2
    · exact fine_addr_out w args _ (by decide)
    · exact fine_addr_out w args _ (by decide)
    · exact (fine_size_arms w args).2.2.2
    · exact (fine_int_arms w args).2.1
    · exact (fine_int_arms w args).2.2.1
    · exact (fine_int_arms w args).2.2.2
    · exact fine_writev_arm w args hc
  · exact fine_rest w call args (Nat.lt_of_not_le hb) h hp

/-- C97.  A call never touches address zero: a null pointer is refused, or taken as "not given",
in every argument position.  Left out: the buffers inside a `writev` array, which nothing checks, and
a negative count there. -/
theorem null_untouched_partial (w : World) (call : Nat) (args : List (BitVec 64))
    (hv : call = 170 → 0 ≤ sint (args.getD 2 0#64) ∧ ∀ i < (sint (args.getD 2 0#64)).toNat,
      peek w.mem ((args.getD 1 0#64).toNat + 16 * i + 8) 8 ≠ 0 →
      peek w.mem ((args.getD 1 0#64).toNat + 16 * i) 8 ≠ 0) :
    ∀ x ∈ touches w call args, ¬ AtNull x := by
  show NN (touches w call args)
  by_cases hb : 171 ≤ call
  · rw [touches_none hb]; exact nn_nil
  have hl : call < 171 := Nat.lt_of_not_le hb
  interval_cases call
  all_goals first
    | exact nn_nil
    | exact nn_plain (fun _ => nn_nil)
    | exact nn_arms1 w args _ (by decide)
    | exact nn_arms2 w args _ (by decide)
    | exact nn_arms3 w args _ (by decide)
    | exact nn_arms4 w args _ (by decide)
    | exact nn_shmdt w args
    | exact nn_plain (fun hw => nn_writev (pos_of hw.2.1) (hv rfl).1 (hv rfl).2)

theorem not_wf {utf8 : BitVec 64 → Bool} (args : List (BitVec 64)) (ks : List Kind) :
    ∀ i, (∃ q ∈ ks.zip (args.drop i), ¬ WellFormed utf8 q.2 q.1) → ¬ Wf utf8 args i ks := by
  induction ks with
  | nil => intro i ⟨q, hq, _⟩; cases hq
  | cons k ks ih =>
    intro i ⟨q, hq, hn⟩ hw
    cases hd : args.drop i with
    | nil => rw [hd] at hq; cases hq
    | cons a t =>
      have ha : args.getD i 0#64 = a := by rw [← headD_drop, hd]; rfl
      have ht : args.drop (i + 1) = t := by rw [← List.tail_drop, hd]; rfl
      rw [hd, List.zip_cons_cons, List.mem_cons] at hq
      rcases hq with rfl | hq
      · exact hn (ha ▸ hw.1)
      · exact ih (i + 1) ⟨q, ht ▸ hq, hn⟩ hw.2

/-- C97.  A call refused for one of its arguments (an `int` with bits above 32, a null pointer where
none is allowed, a path that is not text) leaves all of its caller's memory as it was. -/
theorem refused_changes_nothing (w : World) (p : Nat × List CType) (hp : p ∈ prototypes)
    (args : List (BitVec 64))
    (hbad : ∃ q ∈ (p.2.map CType.kind).zip args, ¬ WellFormed w.utf8 q.2 q.1) :
    ∀ x ∈ touches w p.1 args, ¬ Changes x := by
  rw [touches_plain (dispatch_prototypes p hp)]
  intro x hx
  rcases List.mem_append.1 hx with hx | hx
  · obtain ⟨a, _, rfl, _⟩ := argAccs_mem hx
    exact fun q => q
  · have hn := not_wf (utf8 := w.utf8) args _ 0 hbad
    rcases checkArgs_cases w.utf8 args (p.2.map CType.kind) with ⟨hw, _⟩ | ⟨_, e, he⟩
    · exact absurd hw hn
    · rw [he] at hx; cases hx

/-- C97, for the two entry points that bypass the dispatcher: `quick_read` and `quick_write` stay
inside the buffer they are given. -/
theorem quick_inside (w : World) (fd : BitVec 32) (b n : BitVec 64) :
    (∀ x ∈ quick w 12 fd b n, Inside x (.out b.toNat n.toNat)) ∧
    (∀ x ∈ quick w 13 fd b n, Inside x (.inn b.toNat n.toNat)) := by
  constructor
  · intro x hx
    obtain ⟨r, hr, h⟩ := (fine_recv (R := [.out b.toNat n.toNat]) List.mem_cons_self :
      Fine _ (recvCall w b.toNat n.toNat 0)) x hx
    rw [List.mem_singleton] at hr
    exact hr ▸ h
  · intro x hx
    obtain ⟨r, hr, h⟩ := (fine_early_read (R := [.inn b.toNat n.toNat]) List.mem_cons_self
      (Nat.min_le_right _ _) : Fine _ (if w.early then [] else drainBuf w b.toNat n.toNat)) x hx
    rw [List.mem_singleton] at hr
    exact hr ▸ h

end Verif.Touch
