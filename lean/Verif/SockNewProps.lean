import Verif.SockNewLemmas

/-!
# C101: `socket` and `socketpair` make exactly what they were asked for

The arguments range over all numbers of 32 bits and the states over all tables, reachable or not, unless a statement says otherwise.
-/

namespace Verif.SockNew
open Verif.SockNewSpec

/-- Number `n` is open on a socket of the domain, kind and flags asked for, as `fcntl` and `exec` see it. -/
structure Fits (s : State) (n : Nat) (domain : BitVec 32) (k : Kind) (nb ce : Bool) (id : Nat) : Prop where
  sock : ∃ x, s.fds n = some (.sock x) ∧ x.id = id ∧ x.domain = domain ∧ x.protocol.toNat = k.proto ∧ x.socktype.toNat % 8 = k.num
  getfd : SockNew.getfd s n = (cloexec ce : Nat)
  getfl : SockNew.getfl s n = (nonblock nb + cloexec ce : Nat)
  exec : (SockNew.exec s).fds n = if ce then none else s.fds n

/-- No descriptor of the table is open on socket `id`. -/
structure New (s : State) (id : Nat) : Prop where
  none : ∀ n x, s.fds n = some (.sock x) → x.id ≠ id

theorem fits_made {s : State} {n : Nat} {d t : I32} {k : Kind} {nb ce : Bool} (s0 : State) (ha : Asks t k nb ce) (hn : n < 1024)
    (h : s.fds n = some (.sock (made s0 d t k nb ce))) : Fits s n d k nb ce s0.made := by
  refine ⟨⟨_, h, rfl, rfl, ?_, ?_⟩, ?_, ?_, ?_⟩
  · show (BitVec.ofNat 32 k.proto).toNat = _
    cases k <;> decide
  · show t.toNat % 8 = _
    rw [ha.eq]
    cases k <;> cases nb <;> cases ce <;> decide
  · unfold getfd
    rw [h]
    show ((((if nb then oNonblock else 0) ||| (if ce then oCloexec else 0)) &&& oCloexec : I32)).toInt = _
    cases nb <;> cases ce <;> decide
  · unfold getfl
    rw [h]
    show ((((if nb then oNonblock else 0) ||| (if ce then oCloexec else 0)) &&& ~~~oCreation : I32)).toInt = _
    cases nb <;> cases ce <;> decide
  · unfold exec
    dsimp only
    rw [h]
    dsimp only
    cases nb <;> cases ce <;> simp [Desc.flags, made, maxfd, hn] <;> decide

/-- In every reachable state, sockets made from now on are new. -/
theorem ids_below (ops : List Op) : ∀ n x, (run init ops).fds n = some (.sock x) → x.id < (run init ops).made := by
  have key : ∀ (ops : List Op) (s : State), (∀ n x, s.fds n = some (.sock x) → x.id < s.made) →
      ∀ n x, (run s ops).fds n = some (.sock x) → x.id < (run s ops).made := by
    intro ops
    induction ops with
    | nil => intro s h; exact h
    | cons o os ih =>
      intro s h
      refine ih _ ?_
      have hins : ∀ (s : State) (k : Sock), (∀ n x, s.fds n = some (.sock x) → x.id < s.made) → k.id < s.made →
          ∀ n x, (inserter s k).1.fds n = some (.sock x) → x.id < (inserter s k).1.made := by
        intro s k hs hk n x hx
        rw [inserter_made]
        unfold inserter at hx
        split at hx
        · exact hs n x hx
        · next m hm =>
          have hx' : put s.fds m (some (.sock k)) n = some (.sock x) := hx
          unfold put at hx'
          split at hx'
          · injection hx' with hx'; injection hx' with hx'; rw [← hx']; exact hk
          · exact hs n x hx'
      have hone : ∀ (s : State) (d t : I32) (k : Kind) (nb ce : Bool), (∀ n x, s.fds n = some (.sock x) → x.id < s.made) →
          ∀ n x, (inserter { s with made := s.made + 1 } (made s d t k nb ce)).1.fds n = some (.sock x) →
            x.id < (inserter { s with made := s.made + 1 } (made s d t k nb ce)).1.made := by
        intro s d t k nb ce hs
        exact hins _ _ (fun n x hx => Nat.lt_succ_of_lt (hs n x hx)) (Nat.lt_succ_self _)
      cases o with
      | socket d t p =>
        show ∀ n x, (socket s d t p).1.fds n = some (.sock x) → x.id < (socket s d t p).1.made
        by_cases hw : ∃ k nb ce, Wants d t p k nb ce
        · obtain ⟨k, nb, ce, hw⟩ := hw
          rw [socket_wanted hw]
          exact hone s d t k nb ce h
        · rw [socket_unwanted (fun k nb ce hx => hw ⟨k, nb, ce, hx⟩)]
          exact h
      | socketpair d t p =>
        show ∀ n x, (socketpair s d t p).1.fds n = some (.sock x) → x.id < (socketpair s d t p).1.made
        by_cases hw : ∃ nb ce, WantsPair d t p nb ce
        · obtain ⟨nb, ce, hw⟩ := hw
          rw [socketpair_wanted hw]
          exact hone _ d t .stream nb ce (hone s d t .stream nb ce h)
        · rcases socketpair_unwanted (fun nb ce hx => hw ⟨nb, ce, hx⟩) s with e | e <;> rw [e] <;> exact h
      | close m =>
        show ∀ n x, (close s m).1.fds n = some (.sock x) → x.id < (close s m).1.made
        unfold close
        intro n x
        split
        · split
          · exact h n x
          · show put s.fds m none n = _ → _
            unfold put
            split
            · intro e; exact nomatch e
            · exact h n x
        · exact h n x
      | place m f =>
        show ∀ n x, (place s m f).1.fds n = some (.sock x) → x.id < (place s m f).1.made
        unfold place
        intro n x
        split
        · show put s.fds m _ n = _ → _
          unfold put
          split
          · intro e; exact nomatch e
          · exact h n x
        · exact h n x
      | setfd m a =>
        show ∀ n x, (setfd s m a).1.fds n = some (.sock x) → x.id < (setfd s m a).1.made
        unfold setfd
        intro n x
        split
        · exact h n x
        · next y hy =>
          split
          · show put s.fds m _ n = _ → _
            unfold put
            split
            · intro e
              cases y with
              | other f => exact nomatch e
              | sock y =>
                injection e with e; injection e with e
                rw [← e]; exact h m y hy
            · exact h n x
          · exact h n x
      | setfl m a =>
        show ∀ n x, (setfl s m a).1.fds n = some (.sock x) → x.id < (setfl s m a).1.made
        unfold setfl
        intro n x
        split
        · exact h n x
        · next y hy =>
          split
          · show put s.fds m _ n = _ → _
            unfold put
            split
            · intro e
              cases y with
              | other f => exact nomatch e
              | sock y =>
                injection e with e; injection e with e
                rw [← e]; exact h m y hy
            · exact h n x
          · exact h n x
      | exec =>
        show ∀ n x, (exec s).fds n = some (.sock x) → x.id < s.made
        unfold exec
        intro n x
        dsimp only
        split
        · intro e; exact nomatch e
        · next y hy =>
          split
          · intro e; exact nomatch e
          · intro e; exact h n x (hy.trans e)
  refine key ops init ?_
  intro n x h
  unfold init at h
  dsimp only at h
  split at h
  · exact nomatch h
  · split at h
    · exact nomatch h
    · split at h
      · exact nomatch h
      · exact nomatch h

/-! ## `socket` -/

/-- **`socket` gives what it was asked for**: the lowest free number, open on a new socket of exactly the domain, kind, protocol and
flags of the arguments; and no other descriptor changes. -/
theorem socket_exact (s : State) {d t p : BitVec 32} {k : Kind} {nb ce : Bool} (hw : Wants d t p k nb ce) {n : Nat}
    (hn : Lowest s.fds n) :
    (socket s d t p).2 = n ∧ Fits (socket s d t p).1 n d k nb ce s.made ∧
      (∀ m, m ≠ n → (socket s d t p).1.fds m = s.fds m) ∧ (socket s d t p).1.joined = s.joined := by
  rw [socket_wanted hw, inserter_at (s := { s with made := s.made + 1 }) hn]
  refine ⟨rfl, fits_made s hw.type hn.bound ?_, fun m hm => ?_, rfl⟩
  · show put s.fds n _ n = _
    unfold put
    rw [if_pos rfl]
  · show put s.fds n _ m = _
    unfold put
    rw [if_neg hm]

/-- **The socket is a new one**: no descriptor of a process with any history is open on it yet. -/
theorem socket_new (ops : List Op) : New (run init ops) (run init ops).made :=
  ⟨fun n x h e => Nat.lt_irrefl _ (e ▸ ids_below ops n x h)⟩

/-- **Nothing else is accepted**: with arguments that ask for nothing there is, `socket` is EOPNOTSUPP, and nothing changes. -/
theorem socket_refused (s : State) {d t p : BitVec 32} (hw : ¬ ∃ k nb ce, Wants d t p k nb ce) : socket s d t p = (s, -95) :=
  socket_unwanted (fun k nb ce h => hw ⟨k, nb, ce, h⟩) s

/-- **A full table is ENFILE**, and no descriptor changes. -/
theorem socket_full (s : State) {d t p : BitVec 32} {k : Kind} {nb ce : Bool} (hw : Wants d t p k nb ce) (hf : Full s.fds) :
    (socket s d t p).2 = -23 ∧ (socket s d t p).1.fds = s.fds ∧ (socket s d t p).1.joined = s.joined := by
  rw [socket_wanted hw, inserter_full (s := { s with made := s.made + 1 }) hf]
  exact ⟨rfl, rfl, rfl⟩

/-- **The exact condition**: `socket` gives a descriptor if and only if the arguments ask for a socket there is and a number is free. -/
theorem socket_iff (s : State) (d t p : BitVec 32) :
    0 ≤ (socket s d t p).2 ↔ (∃ k nb ce, Wants d t p k nb ce) ∧ ∃ n, Lowest s.fds n := by
  constructor
  · intro h
    by_cases hw : ∃ k nb ce, Wants d t p k nb ce
    · refine ⟨hw, ?_⟩
      rcases lowest_or_full s.fds with hl | hf
      · exact hl
      · obtain ⟨k, nb, ce, hw⟩ := hw
        rw [(socket_full s hw hf).1] at h
        exact absurd h (by decide)
    · rw [socket_refused s hw] at h
      exact absurd h (show ¬ (0 : Int) ≤ -95 by decide)
  · rintro ⟨⟨k, nb, ce, hw⟩, n, hn⟩
    rw [(socket_exact s hw hn).1]
    exact Int.natCast_nonneg n

/-- **What is asked for is unambiguous**: no two kinds or sets of flags have the same number. -/
theorem wants_unique {d t p : BitVec 32} {k k' : Kind} {nb nb' ce ce' : Bool} (h : Wants d t p k nb ce) (h' : Wants d t p k' nb' ce') :
    k = k' ∧ nb = nb' ∧ ce = ce' := Asks.unique h.type h'.type

/-! ## The flags last -/

/-- The call is not about number `n`, and is no `exec`. -/
def away (n : Nat) : Op → Bool
  | .close m => m ≠ n
  | .setfd m _ => m ≠ n
  | .setfl m _ => m ≠ n
  | .exec => false
  | _ => true

theorem step_keeps {n : Nat} {o : Op} (ho : away n o = true) (s : State) {e : Desc} (h : s.fds n = some e) :
    (step s o).1.fds n = some e := by
  cases o with
  | socket d t p =>
    show (socket s d t p).1.fds n = _
    by_cases hw : ∃ k nb ce, Wants d t p k nb ce
    · obtain ⟨k, nb, ce, hw⟩ := hw
      rw [socket_wanted hw]
      exact inserter_keeps _ _ h
    · rw [socket_refused s hw]; exact h
  | socketpair d t p =>
    show (socketpair s d t p).1.fds n = _
    by_cases hw : ∃ nb ce, WantsPair d t p nb ce
    · obtain ⟨nb, ce, hw⟩ := hw
      rw [socketpair_wanted hw]
      exact inserter_keeps _ _ (inserter_keeps { s with made := s.made + 1 } _ h)
    · rcases socketpair_unwanted (fun nb ce hx => hw ⟨nb, ce, hx⟩) s with e | e <;> rw [e] <;> exact h
  | close m =>
    have hm : m ≠ n := by simpa [away] using ho
    show (close s m).1.fds n = _
    unfold close
    split
    · split
      · exact h
      · show put s.fds m none n = _
        unfold put
        rw [if_neg (Ne.symm hm)]; exact h
    · exact h
  | place m f =>
    show (place s m f).1.fds n = _
    unfold place
    split
    · next hc =>
      show put s.fds m _ n = _
      unfold put
      rw [if_neg (fun hmn => by rw [← hmn, h] at hc; exact nomatch hc.2)]; exact h
    · exact h
  | setfd m a =>
    have hm : m ≠ n := by simpa [away] using ho
    show (setfd s m a).1.fds n = _
    unfold setfd
    split
    · exact h
    · split
      · show put s.fds m _ n = _
        unfold put
        rw [if_neg (Ne.symm hm)]; exact h
      · exact h
  | setfl m a =>
    have hm : m ≠ n := by simpa [away] using ho
    show (setfl s m a).1.fds n = _
    unfold setfl
    split
    · exact h
    · split
      · show put s.fds m _ n = _
        unfold put
        rw [if_neg (Ne.symm hm)]; exact h
      · exact h
  | exec => exact nomatch ho

/-- **A descriptor stays what it was made to be**, whatever other calls the process makes, until it is closed or its flags are set, or
the process runs another program; and then it is gone exactly if close-on-exec was asked for. -/
theorem flags_last {n : Nat} : ∀ (ops : List Op) (s : State) {d : BitVec 32} {k : Kind} {nb ce : Bool} {id : Nat},
    (∀ o ∈ ops, away n o = true) → Fits s n d k nb ce id → Fits (run s ops) n d k nb ce id := by
  have key : ∀ (ops : List Op) (s : State), (∀ o ∈ ops, away n o = true) → ∀ e, s.fds n = some e → (run s ops).fds n = some e := by
    intro ops
    induction ops with
    | nil => intro s _ e h; exact h
    | cons o os ih =>
      intro s ho e h
      exact ih _ (fun o' h' => ho o' (List.mem_cons_of_mem _ h')) e (step_keeps (ho o (List.mem_cons_self ..)) s h)
  intro ops s d k nb ce id ho h
  obtain ⟨x, hx, rest⟩ := h.sock
  have hx' := key ops s ho _ hx
  refine ⟨⟨x, hx', rest⟩, ?_, ?_, ?_⟩
  · rw [← h.getfd]; unfold getfd; rw [hx, hx']
  · rw [← h.getfl]; unfold getfl; rw [hx, hx']
  · have he := h.exec
    unfold exec at he ⊢
    dsimp only at he ⊢
    rw [hx] at he
    rw [hx']
    exact he

theorem toInt_eq {a b : I32} (h : a.toInt = b.toInt) : a = b := BitVec.eq_of_toInt_eq h

/-- The two flag words of a descriptor that fits. -/
theorem fits_flags {s : State} {n : Nat} {d : BitVec 32} {k : Kind} {nb ce : Bool} {id : Nat} (h : Fits s n d k nb ce id) :
    ∃ x, s.fds n = some (.sock x) ∧ x.flags &&& oCloexec = (if ce then oCloexec else 0) ∧
      x.flags &&& ~~~oCreation = ((if nb then oNonblock else 0) ||| (if ce then oCloexec else 0)) := by
  obtain ⟨x, hx, -⟩ := h.sock
  have h1 := h.getfd
  have h2 := h.getfl
  unfold SockNew.getfd at h1
  unfold SockNew.getfl at h2
  rw [hx] at h1 h2
  refine ⟨x, hx, toInt_eq (h1.trans ?_), toInt_eq (h2.trans ?_)⟩
  · cases ce <;> decide
  · cases nb <;> cases ce <;> decide

theorem fits_reflag {s : State} {n : Nat} {d : BitVec 32} {k : Kind} {nb ce : Bool} {id : Nat} (h : Fits s n d k nb ce id) (hn : n < 1024)
    {x : Sock} (hx : s.fds n = some (.sock x)) {f : I32} {nb' ce' : Bool} (h1 : f &&& oCloexec = (if ce' then oCloexec else 0))
    (h2 : f &&& ~~~oCreation = ((if nb' then oNonblock else 0) ||| (if ce' then oCloexec else 0))) :
    Fits { s with fds := put s.fds n (some (.sock { x with flags := f })) } n d k nb' ce' id := by
  obtain ⟨y, hy, a⟩ := h.sock
  rw [hx] at hy; cases hy
  have hp : put s.fds n (some (.sock { x with flags := f })) n = some (.sock { x with flags := f }) := if_pos rfl
  refine ⟨⟨_, hp, a⟩, ?_, ?_, ?_⟩
  · unfold SockNew.getfd
    dsimp only
    rw [hp]
    show (f &&& oCloexec).toInt = _
    rw [h1]
    cases ce' <;> decide
  · unfold SockNew.getfl
    dsimp only
    rw [hp]
    show (f &&& ~~~oCreation).toInt = _
    rw [h2]
    cases nb' <;> cases ce' <;> decide
  · unfold SockNew.exec
    dsimp only
    rw [hp]
    show (if n < maxfd ∧ f &&& oCloexec ≠ 0 then none else _) = _
    rw [h1]
    cases ce' <;> simp [maxfd, hn]
    decide

/-- **F_SETFD sets close-on-exec and nothing else.**  The argument is the one this system uses, the bit of O_CLOEXEC. -/
theorem flags_setfd {s : State} {n : Nat} {d : BitVec 32} {k : Kind} {nb ce : Bool} {id : Nat} (h : Fits s n d k nb ce id) (hn : n < 1024) (on : Bool) :
    (setfd s n (BitVec.ofNat 32 (cloexec on))).2 = 0 ∧ Fits (setfd s n (BitVec.ofNat 32 (cloexec on))).1 n d k nb on id ∧
      ∀ j, j ≠ n → (setfd s n (BitVec.ofNat 32 (cloexec on))).1.fds j = s.fds j := by
  obtain ⟨x, hx, h1, h2⟩ := fits_flags h
  unfold setfd
  rw [hx]
  dsimp only
  have h0 : 0 ≤ (BitVec.ofNat 32 (cloexec on)).toInt := by cases on <;> decide
  rw [if_pos h0]
  refine ⟨rfl, ?_, fun j hj => if_neg hj⟩
  refine fits_reflag h hn hx ?_ ?_
  · show (if _ then x.flags ||| oCloexec else x.flags &&& ~~~oCloexec) &&& oCloexec = _
    cases on with
    | true =>
      rw [if_pos (by decide), BitVec.and_or_distrib_right, h1]
      cases ce <;> decide
    | false =>
      rw [if_neg (by decide), BitVec.and_assoc, BitVec.and_comm (~~~oCloexec), ← BitVec.and_assoc, h1]
      cases ce <;> decide
  · show (if _ then x.flags ||| oCloexec else x.flags &&& ~~~oCloexec) &&& ~~~oCreation = _
    cases on with
    | true =>
      rw [if_pos (by decide), BitVec.and_or_distrib_right, h2]
      cases nb <;> cases ce <;> decide
    | false =>
      rw [if_neg (by decide), BitVec.and_assoc, BitVec.and_comm (~~~oCloexec), ← BitVec.and_assoc, h2]
      cases nb <;> cases ce <;> decide

/-- **F_SETFL sets O_NONBLOCK.**  Partial: it should leave close-on-exec alone, but turns it off (`setfl_cloexec_violated`). -/
theorem flags_setfl_partial {s : State} {n : Nat} {d : BitVec 32} {k : Kind} {nb ce : Bool} {id : Nat} (h : Fits s n d k nb ce id) (hn : n < 1024)
    (on : Bool) :
    (setfl s n (BitVec.ofNat 32 (nonblock on))).2 = 0 ∧ Fits (setfl s n (BitVec.ofNat 32 (nonblock on))).1 n d k on false id ∧
      ∀ j, j ≠ n → (setfl s n (BitVec.ofNat 32 (nonblock on))).1.fds j = s.fds j := by
  obtain ⟨x, hx, h1, h2⟩ := fits_flags h
  unfold setfl
  rw [hx]
  dsimp only
  have h0 : 0 ≤ (BitVec.ofNat 32 (nonblock on)).toInt := by cases on <;> decide
  rw [if_pos h0]
  refine ⟨rfl, ?_, fun j hj => if_neg hj⟩
  refine fits_reflag h hn hx ?_ ?_
  · show ((BitVec.ofNat 32 (nonblock on) &&& ~~~(oRdwr ||| oCreation)) ||| (x.flags &&& (oRdwr ||| oCreation))) &&& oCloexec = _
    rw [BitVec.and_or_distrib_right, BitVec.and_assoc x.flags, show (oRdwr ||| oCreation) &&& oCloexec = 0 by decide]
    rw [show x.flags &&& (0 : I32) = 0 from BitVec.and_zero]
    cases on <;> decide
  · show ((BitVec.ofNat 32 (nonblock on) &&& ~~~(oRdwr ||| oCreation)) ||| (x.flags &&& (oRdwr ||| oCreation))) &&& ~~~oCreation = _
    rw [BitVec.and_or_distrib_right, BitVec.and_assoc x.flags, BitVec.and_comm (oRdwr ||| oCreation), ← BitVec.and_assoc x.flags, h2]
    cases on <;> cases nb <;> cases ce <;> decide

/-- A socket asked to be closed on exec is not any more after F_SETFL has set O_NONBLOCK. -/
theorem setfl_cloexec_violated : Fits (run init [.socket 2 (1 ||| 524288) 0]) 3 2 .stream false true 0 ∧
    getfd (run init [.socket 2 (1 ||| 524288) 0]) 3 = 524288 ∧
    getfd (run init [.socket 2 (1 ||| 524288) 0, .setfl 3 2048]) 3 = 0 := by
  refine ⟨?_, by decide +kernel, by decide +kernel⟩
  have hl : Lowest init.fds 3 := ⟨by decide, rfl, by decide⟩
  have h := (socket_exact init (d := 2) (t := 524289) (p := 0) (k := .stream) (nb := false) (ce := true) ⟨⟨.inr (.inl rfl)⟩, ⟨rfl⟩, ⟨.inl rfl⟩⟩ hl).2.1
  exact h

/-! ## `socketpair` -/

/-- Numbers `n` and `m` are the two lowest that are free. -/
structure TwoLowest (t : Nat → Option Desc) (n m : Nat) : Prop where
  first : Lowest t n
  lt : n < m
  bound : m < 1024
  free : t m = none
  least : ∀ j < m, j ≠ n → t j ≠ none

/-- **`socketpair` gives what it was asked for, when two numbers are free**: it stores the two lowest free numbers, open on two new
sockets with exactly the flags asked for, which are joined to each other; no other descriptor and no other pair changes.

Partial: without two free numbers the call should fail; see `socketpair_full_violated`. -/
theorem socketpair_exact_partial (s : State) {d t p : BitVec 32} {nb ce : Bool} (hw : WantsPair d t p nb ce) {n m : Nat}
    (h2 : TwoLowest s.fds n m) :
    (socketpair s d t p).2 = (0, some ((n : Int), (m : Int))) ∧
      Fits (socketpair s d t p).1 n d .stream nb ce s.made ∧ Fits (socketpair s d t p).1 m d .stream nb ce (s.made + 1) ∧
      (∀ j, j ≠ n → j ≠ m → (socketpair s d t p).1.fds j = s.fds j) ∧
      (socketpair s d t p).1.joined = (s.made, s.made + 1) :: s.joined := by
  have hnm : n ≠ m := Nat.ne_of_lt h2.lt
  have e1 := inserter_at (s := { s with made := s.made + 1 }) h2.first (made s d t .stream nb ce)
  have hl : Lowest (put s.fds n (some (.sock (made s d t .stream nb ce)))) m := by
    refine ⟨h2.bound, ?_, fun j hj => ?_⟩
    · unfold put; rw [if_neg (Ne.symm hnm)]; exact h2.free
    · unfold put
      split
      · exact fun e => nomatch e
      · next hjn => exact h2.least j hj hjn
  rw [socketpair_wanted hw]
  dsimp only
  rw [e1]
  dsimp only
  rw [inserter_at (s := { fds := put s.fds n (some (.sock (made s d t .stream nb ce))), made := s.made + 1 + 1, joined := s.joined }) hl]
  refine ⟨rfl, fits_made s hw.type h2.first.bound ?_,
    fits_made { s with fds := put s.fds n (some (.sock (made s d t .stream nb ce))), made := s.made + 1 } hw.type h2.bound ?_,
    fun j hj1 hj2 => ?_, rfl⟩
  · show put (put s.fds n _) m _ n = _
    unfold put
    rw [if_neg hnm, if_pos rfl]
  · show put (put s.fds n _) m _ m = _
    unfold put
    rw [if_pos rfl]
  · show put (put s.fds n _) m _ j = _
    unfold put
    rw [if_neg hj2, if_neg hj1]

/-- **The two sockets of a pair are new**, for a process with any history. -/
theorem socketpair_new (ops : List Op) : New (run init ops) (run init ops).made ∧ New (run init ops) ((run init ops).made + 1) :=
  ⟨socket_new ops, ⟨fun n x h e => by have := ids_below ops n x h; omega⟩⟩

/-- **Nothing else is accepted**: other arguments are EOPNOTSUPP or EINVAL, nothing is stored and nothing changes. -/
theorem socketpair_refused (s : State) {d t p : BitVec 32} (hw : ¬ ∃ nb ce, WantsPair d t p nb ce) :
    socketpair s d t p = (s, -95, none) ∨ socketpair s d t p = (s, -22, none) :=
  socketpair_unwanted (fun nb ce h => hw ⟨nb, ce, h⟩) s

/-- EINVAL is for a request that is right but for unknown flags. -/
theorem socketpair_einval_iff (s : State) (d t p : BitVec 32) :
    (socketpair s d t p).2.1 = -22 ↔ d.toNat = 1 ∧ t.toNat % 8 = 1 ∧ Proto p .stream ∧ ¬ ∃ nb ce, Asks t .stream nb ce := by
  have h7 : (t &&& 7 = sockStream) ↔ t.toNat % 8 = 1 := by
    have e : (t &&& 7).toNat = t.toNat % 8 := by
      rw [BitVec.toNat_and]
      exact Nat.and_two_pow_sub_one_eq_mod t.toNat 3
    constructor
    · intro h; rw [← e, h]; rfl
    · intro h; exact (eq_of_nat _ 1 (by decide)).mpr (e.trans h)
  have hd := eq_of_nat d 1 (by decide)
  have hp := proto_iff p .stream
  by_cases hw : ∃ nb ce, WantsPair d t p nb ce
  · obtain ⟨nb, ce, hw⟩ := hw
    rw [socketpair_wanted hw]
    constructor
    · intro h; exact absurd h (show ¬ (0 : Int) = -22 by decide)
    · rintro ⟨_, _, _, h⟩; exact absurd ⟨nb, ce, hw.type⟩ h
  · unfold socketpair
    by_cases h1 : d = afUnix
    · rw [if_neg (fun e => e h1)]
      by_cases h2 : t &&& 7 = sockStream
      · by_cases h3 : (if p = 0 then ipprotoTcp else p) = ipprotoTcp
        · rw [if_neg (fun e => e.elim (fun e => e h2) (fun e => e h3))]
          by_cases hm : t &&& ~~~(sockNonblock ||| sockCloexec ||| 7) = 0
          · exact absurd ⟨_, _, hd.mp h1, asks_of t .stream hm h2, hp.mp h3⟩ hw
          · rw [if_pos hm]
            exact ⟨fun _ => ⟨hd.mp h1, h7.mp h2, hp.mp h3, fun ⟨nb, ce, ha⟩ => hm (of_asks ha).1⟩, fun _ => rfl⟩
        · rw [if_pos (.inr h3)]
          exact ⟨fun h => absurd h (show ¬ (-95 : Int) = -22 by decide), fun h => absurd (hp.mpr h.2.2.1) h3⟩
      · rw [if_pos (.inl h2)]
        exact ⟨fun h => absurd h (show ¬ (-95 : Int) = -22 by decide), fun h => absurd (h7.mpr h.2.1) h2⟩
    · rw [if_pos h1]
      exact ⟨fun h => absurd h (show ¬ (-95 : Int) = -22 by decide), fun h => absurd (hd.mpr h.1) h1⟩

/-! ## Where the code does otherwise -/

/-- Calls that fill the table but for the numbers from `k + 3` on. -/
def fill : Nat → List Op
  | 0 => []
  | k + 1 => fill k ++ [.place (k + 3) 0]

theorem run_append (s : State) (a b : List Op) : run s (a ++ b) = run (run s a) b := by
  induction a generalizing s with
  | nil => rfl
  | cons o os ih => exact ih _

theorem fill_table : ∀ k, k ≤ 1021 → ∀ m, (run init (fill k)).fds m ≠ none ↔ m < k + 3
  | 0, _, m => by
    show init.fds m ≠ none ↔ _
    unfold init
    dsimp only
    split
    · next h => subst h; simp
    · split
      · next h => subst h; simp
      · split
        · next h => subst h; simp
        · simp; omega
  | k + 1, hk, m => by
    have ih := fill_table k (by omega)
    rw [show fill (k + 1) = fill k ++ [.place (k + 3) 0] from rfl, run_append]
    show (place (run init (fill k)) (k + 3) 0).1.fds m ≠ none ↔ _
    have hfree : (run init (fill k)).fds (k + 3) = none := by
      exact Classical.not_not.mp (fun h => Nat.lt_irrefl _ ((ih (k + 3)).mp h))
    unfold place
    rw [if_pos ⟨by unfold maxfd; omega, hfree⟩]
    show put _ (k + 3) _ m ≠ none ↔ _
    unfold put
    split
    · next h => subst h; simp
    · next h => rw [ih m]; omega

theorem pair_full (s : State) (hf : Full s.fds) : (socketpair s 1 1 0).2 = (0, some (-23, -23)) := by
  rw [socketpair_wanted (nb := false) (ce := false) ⟨rfl, ⟨rfl⟩, ⟨.inl rfl⟩⟩]
  dsimp only
  rw [inserter_full (s := { s with made := s.made + 1 }) hf]
  dsimp only
  rw [inserter_full (s := { s with made := s.made + 1 + 1 }) hf]

theorem pair_one (s : State) {n : Nat} (hl : Lowest s.fds n) (ho : ∀ j < 1024, j ≠ n → s.fds j ≠ none) :
    (socketpair s 1 1 0).2 = (0, some ((n : Int), -23)) ∧ (socketpair s 1 1 0).1.fds n ≠ none := by
  have hf : Full (put s.fds n (some (.sock (made s 1 1 .stream false false)))) := by
    refine ⟨fun m hm => ?_⟩
    unfold put
    split
    · exact fun e => nomatch e
    · next h => exact ho m hm h
  have e1 := inserter_at (s := { s with made := s.made + 1 }) hl (made s 1 1 .stream false false)
  rw [socketpair_wanted (nb := false) (ce := false) ⟨rfl, ⟨rfl⟩, ⟨.inl rfl⟩⟩]
  dsimp only
  rw [e1]
  dsimp only
  rw [inserter_full (s := { fds := put s.fds n (some (.sock (made s 1 1 .stream false false))), made := s.made + 1 + 1, joined := s.joined }) hf]
  refine ⟨rfl, ?_⟩
  show put s.fds n _ n ≠ none
  unfold put
  rw [if_pos rfl]
  exact fun e => nomatch e

/-- **Violated: with a full table `socketpair` should be ENFILE.**  `_socket_inserter` answers -23, which `socketpair_syscall`
(`net_calls.rs` 5158 and 5167) does not look at: the call returns 0 and stores -23 as both descriptor numbers. -/
theorem socketpair_full_violated : ∃ (ops : List Op) (d t p : BitVec 32), WantsPair d t p false false ∧
    Full (run init ops).fds ∧ (socketpair (run init ops) d t p).2 = (0, some (-23, -23)) := by
  have hf : Full (run init (fill 1021)).fds := ⟨fun n hn => (fill_table 1021 (by omega) n).mpr (by omega)⟩
  exact ⟨fill 1021, 1, 1, 0, ⟨rfl, ⟨rfl⟩, ⟨.inl rfl⟩⟩, hf, pair_full _ hf⟩

/-- **Violated: a `socketpair` that cannot be met should leave the table as it is.**  With one number free the call returns 0, leaves a
descriptor open on a socket whose other end is already out of reach, and stores -23 as the number of the other. -/
theorem socketpair_one_violated : ∃ (ops : List Op) (d t p : BitVec 32), WantsPair d t p false false ∧
    (socketpair (run init ops) d t p).2 = (0, some (1023, -23)) ∧ (run init ops).fds 1023 = none ∧
    (socketpair (run init ops) d t p).1.fds 1023 ≠ none := by
  have hs := fill_table 1020 (by omega)
  have hl : Lowest (run init (fill 1020)).fds 1023 :=
    ⟨by omega, Classical.not_not.mp (fun h => Nat.lt_irrefl _ ((hs 1023).mp h)), fun m hm => (hs m).mpr (by omega)⟩
  refine ⟨fill 1020, 1, 1, 0, ⟨rfl, ⟨rfl⟩, ⟨.inl rfl⟩⟩, ?_⟩
  generalize run init (fill 1020) = s at hs hl ⊢
  have h := pair_one s hl (fun j hj hne => (hs j).mpr (by omega))
  exact ⟨h.1, hl.free, h.2⟩

/-- **Violated: SO_TYPE should be the kind of the socket.**  The type is stored with the flags it came with (`net_calls.rs` 228 and 1240),
and `getsockopt` hands out the whole number: a socket made with SOCK_STREAM and SOCK_NONBLOCK reports type 2049. -/
theorem sotype_violated : ∃ (d t p : BitVec 32), Wants d t p .stream true false ∧ (socket init d t p).2 = 3 ∧
    sotype (socket init d t p).1 3 = 2049 :=
  ⟨2, 2049, 0, ⟨⟨.inr (.inl rfl)⟩, ⟨rfl⟩, ⟨.inl rfl⟩⟩, by decide +kernel, by decide +kernel⟩

/-- SO_TYPE is the kind of the socket when no flags were asked for. -/
theorem sotype_partial (s : State) {d t p : BitVec 32} {k : Kind} (hw : Wants d t p k false false) {n : Nat} (hn : Lowest s.fds n) :
    sotype (socket s d t p).1 n = k.num := by
  rw [socket_wanted hw, inserter_at (s := { s with made := s.made + 1 }) hn]
  have ht : t = BitVec.ofNat 32 (k.num + nonblock false + cloexec false) := by
    rw [← hw.type.eq, BitVec.ofNat_toNat, BitVec.setWidth_eq]
  unfold sotype put
  dsimp only
  rw [if_pos rfl]
  show t.toInt = _
  rw [ht]
  cases k <;> decide

/-! ## The hypotheses are met -/

/-- A process that has a file open as 3 and 5, and 4 closed again. -/
def busy : State := run init [.place 3 0, .place 4 1, .place 5 2, .close 4]

theorem busy_two : TwoLowest busy.fds 4 6 :=
  ⟨⟨by decide, by decide +kernel, by decide +kernel⟩, by decide, by decide, by decide +kernel, by decide +kernel⟩

/-- A non-blocking internet socket, closed on exec, takes number 4, and is gone after `exec` while the files are not. -/
example : Wants 2 526337 6 .stream true true ∧ Lowest busy.fds 4 ∧ (socket busy 2 526337 6).2 = 4 ∧
    getfd (socket busy 2 526337 6).1 4 = 524288 ∧ (exec (socket busy 2 526337 6).1).fds 4 = none ∧
    (exec (socket busy 2 526337 6).1).fds 5 = some (.other 2) :=
  ⟨⟨⟨.inr (.inl rfl)⟩, ⟨rfl⟩, ⟨.inr rfl⟩⟩, busy_two.first, by decide +kernel, by decide +kernel, by decide +kernel, by decide +kernel⟩

/-- Unix, type RAW (3), and a datagram socket with TCP, are refused. -/
example : (¬ ∃ k nb ce, Wants 1 3 0 k nb ce) ∧ (¬ ∃ k nb ce, Wants 2 2 6 k nb ce) := by
  constructor
  · rintro ⟨k, nb, ce, h⟩
    have e := h.type.eq
    revert e
    cases k <;> cases nb <;> cases ce <;> decide
  · rintro ⟨k, nb, ce, h⟩
    have e := h.type.eq
    have e' := h.proto.ok
    revert e e'
    cases k <;> cases nb <;> cases ce <;> decide

/-- A pair takes 4 and 6. -/
example : WantsPair 1 2049 0 true false ∧ (socketpair busy 1 2049 0).2 = (0, some (4, 6)) ∧
    getfl (socketpair busy 1 2049 0).1 6 = 2048 := ⟨⟨rfl, ⟨rfl⟩, ⟨.inl rfl⟩⟩, by decide +kernel, by decide +kernel⟩

/-- Other calls do not touch the socket at 4. -/
example : (∀ o ∈ [Op.socketpair 1 1 0, .close 5, .setfl 6 2048], away 4 o = true) ∧ Fits (socket busy 2 526337 6).1 4 2 .stream true true 0 :=
  ⟨by decide, (socket_exact busy (k := .stream) (nb := true) (ce := true) ⟨⟨.inr (.inl rfl)⟩, ⟨rfl⟩, ⟨.inr rfl⟩⟩ busy_two.first).2.1⟩

/-- The hypotheses of `socket_full` are met after 1021 descriptors were opened. -/
example : Full (run init (fill 1021)).fds := ⟨fun n hn => (fill_table 1021 (by omega) n).mpr (by omega)⟩

/-! ## The project's own tests -/

/-- `ut_lind_net_socket`, `/repo/src/tests/networking_tests.rs` 3665-3770. -/
example : [Op.socket 2 4 0, .socket 2 1 999, .socket 999 1 0, .socket 2 (1 ||| 0x100000) 0, .socket 2 1 17, .socket 2 2 6].map
    (fun o => (step init o).2.1) = [-95, -95, -95, -95, -95, -95] := by decide +kernel

example : (fun s => [Op.socket 2 1 0, .socket 2 1 6, .socket 2 2 0, .socket 2 2 17, .socket 1 2 0].map
    (fun o => (step s o).2.1)) init = [3, 3, 3, 3, 3] := by decide +kernel

/-- `ut_lind_net_socketpair_bad_input`, `/repo/src/tests/networking_tests.rs` 4181-4235. -/
example : [Op.socketpair 2 1 0, .socketpair 10 1 0, .socketpair 1 2 0, .socketpair 1 1 1, .socketpair 1 472810394 0,
    .socketpair 1 (1 ||| 1024) 0].map (fun o => (step init o).2) =
    [(-95, none), (-95, none), (-95, none), (-95, none), (-95, none), (-22, none)] := by decide +kernel

/-- `ut_lind_net_socketpair_cloexec`, `/repo/src/tests/networking_tests.rs` 4238-4292. -/
example : (socketpair init 1 (1 ||| sockCloexec) 0).2 = (0, some (3, 4)) ∧
    (exec (socketpair init 1 (1 ||| sockCloexec) 0).1).fds 3 = none ∧ (exec (socketpair init 1 (1 ||| sockCloexec) 0).1).fds 4 = none := by
  decide +kernel

end Verif.SockNew
