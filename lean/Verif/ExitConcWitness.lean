import Verif.ExitConcProps

/-!
# C95: where exit fails, and cases that the theorems speak about
-/

namespace Verif.ExitConc

/-- A small machine. -/
def cfg : Cfg := ⟨6, 8, 2⟩

/-- The read end of pipe 0 is descriptor 3, its write end descriptor 4; no other process has the pipe. -/
def own : Fd → Option End := fun fd => if fd = 3 then some ⟨0, false⟩ else if fd = 4 then some ⟨0, true⟩ else none

/-- The write end of pipe 0 is descriptor 4. -/
def wr4 : Fd → Option End := fun fd => if fd = 4 then some ⟨0, true⟩ else none

/-- So many descriptors of other processes: for reading and for writing pipe 0. -/
def oth (r w : Nat) : End → Nat := fun e => if e = ⟨0, false⟩ then r else if e = ⟨0, true⟩ then w else 0

theorem own_ok : ∀ fd e, own fd = some e → fd < cfg.N ∧ e.pipe < 1 := by
  intro fd e h
  unfold own at h
  split at h
  · rename_i hf; subst hf; cases h; decide
  · split at h
    · rename_i hf; subst hf; cases h; decide
    · cases h

theorem wr4_ok : ∀ fd e, wr4 fd = some e → fd < cfg.N ∧ e.pipe < 1 := by
  intro fd e h
  unfold wr4 at h
  split at h
  · rename_i hf; subst hf; cases h; decide
  · cases h

theorem oth_ok (r w : Nat) : ∀ e : End, 1 ≤ e.pipe → oth r w e = 0 := by
  intro e h
  unfold oth
  rw [if_neg, if_neg] <;> · rintro rfl; exact absurd h (by decide)

/-- The thread that an action belongs to is 1 or 2, or it is another process. -/
def two : Act → Bool
  | .enter t _ | .run t => t == 1 || t == 2
  | _ => true

def closes : Pc → Bool
  | .begun (.close _) | .closing _ => true
  | _ => false

def exits : Pc → Bool
  | .begun .exit | .exiting _ _ => true
  | _ => false

def makes : Pc → Bool
  | .begun (.dup _) | .begun .pipe => true
  | _ => false

/-- `Careful`, checked for two threads, and a little stricter about two `close`s at a time. -/
def careful (q : Bool) (x y : Pc) : Act → Bool
  | .enter _ (.close _) => !(closes x || closes y || exits x || exits y)
  | .enter _ .exit => !(closes x || closes y || exits x || exits y) && !(q && (makes x || makes y))
  | .enter _ (.dup _) | .enter _ .pipe => !(q && (exits x || exits y))
  | _ => true

/-- All of a schedule is careful. -/
def carefulAll (c : Cfg) (q : Bool) : St → List Act → Bool
  | _, [] => true
  | s, a :: l => two a && careful q (s.pc 1) (s.pc 2) a && carefulAll c q (act c s a) l

theorem two_cases {s : St} (hi : ∀ u, u ≠ 1 → u ≠ 2 → s.pc u = .idle) (f : Pc → Bool) (h0 : f .idle = false) (h1 : f (s.pc 1) = false)
    (h2 : f (s.pc 2) = false) (u : Tid) : f (s.pc u) = false := by
  by_cases e : u = 1
  · rw [e]; exact h1
  · by_cases e' : u = 2
    · rw [e']; exact h2
    · rw [hi u e e']; exact h0

theorem inClose_closes {s : St} {u : Tid} {fd : Fd} (h : InClose s u fd) : closes (s.pc u) = true := by
  rcases h with h | h <;> rw [h] <;> rfl

theorem inExit_exits {s : St} {u : Tid} (h : InExit s u) : exits (s.pc u) = true := by
  rcases h with h | ⟨_, _, h⟩ <;> rw [h] <;> rfl

theorem inNew_makes {s : St} {u : Tid} (h : InNew s u) : makes (s.pc u) = true := by
  rcases h with ⟨_, h⟩ | h <;> rw [h] <;> rfl

theorem careful_ok {q : Bool} {s : St} {a : Act} (hi : ∀ u, u ≠ 1 → u ≠ 2 → s.pc u = .idle) (h : careful q (s.pc 1) (s.pc 2) a = true) :
    Careful q s a := by
  have nf : ∀ {f : Pc → Bool} {u : Tid}, f (s.pc u) = true → f .idle = false → f (s.pc 1) = false → f (s.pc 2) = false → False := by
    intro f u h h0 h1 h2
    rw [two_cases hi f h0 h1 h2 u] at h; cases h
  cases a with
  | enter t op =>
    cases op with
    | close fd =>
      simp [careful] at h
      exact ⟨fun u hu => nf (inClose_closes hu) rfl h.1.1.1 h.1.1.2, fun u hu => nf (inExit_exits hu) rfl h.1.2 h.2⟩
    | exit =>
      simp [careful] at h
      refine ⟨fun u fd hu => nf (inClose_closes hu) rfl h.1.1.1.1 h.1.1.1.2, fun u hu => nf (inExit_exits hu) rfl h.1.1.2 h.1.2, fun hq u hu => ?_⟩
      have := h.2.resolve_left (by rw [hq]; decide)
      exact nf (inNew_makes hu) rfl this.1 this.2
    | dup fd =>
      simp [careful] at h
      intro hq u hu
      have := h.resolve_left (by rw [hq]; decide)
      exact nf (inExit_exits hu) rfl this.1 this.2
    | pipe =>
      simp [careful] at h
      intro hq u hu
      have := h.resolve_left (by rw [hq]; decide)
      exact nf (inExit_exits hu) rfl this.1 this.2
    | read => trivial
    | write => trivial
    | fork => trivial
  | run | oread | owrite | oclose | odup => trivial

theorem idle_act {c : Cfg} {s : St} {a : Act} (ht : two a = true) (hi : ∀ u, u ≠ 1 → u ≠ 2 → s.pc u = .idle) :
    ∀ u, u ≠ 1 → u ≠ 2 → (act c s a).pc u = .idle := by
  intro u h1 h2
  cases a with
  | enter t op =>
    simp [two] at ht
    simp only [act]; split
    · dsimp only; rw [upd_ne]
      · exact hi u h1 h2
      · rcases ht with rfl | rfl <;> assumption
    · exact hi u h1 h2
  | run t =>
    simp [two] at ht
    have hne : u ≠ t := by rcases ht with rfl | rfl <;> assumption
    simp only [act]
    cases hs : step c s t with
    | none => exact hi u h1 h2
    | some s' => exact ((step_facts hs).1 u hne).trans (hi u h1 h2)
  | oread p n => simp only [act]; (repeat' split) <;> exact hi u h1 h2
  | owrite p n => simp only [act]; (repeat' split) <;> exact hi u h1 h2
  | oclose e => simp only [act]; (repeat' split) <;> exact hi u h1 h2
  | odup e => simp only [act]; (repeat' split) <;> exact hi u h1 h2

theorem Reach.exec {c : Cfg} {q : Bool} : ∀ {s : St} (l : List Act), Reach c q s → (∀ u, u ≠ 1 → u ≠ 2 → s.pc u = .idle) →
    carefulAll c q s l = true → Reach c q (exec c s l)
  | _, [], h, _, _ => h
  | s, a :: l, h, hi, hl => by
    simp [carefulAll] at hl
    exact (Reach.act a h (careful_ok hi hl.1.2)).exec l (idle_act hl.1.1 hi) hl.2

/-! ## exit waits for ever -/

/-- Thread 2 reads the empty pipe, whose only write end is in the same process; thread 1 exits, and comes to descriptor 3. -/
def hangOps : List Act :=
  [.enter 2 (.read 3 1), .run 2, .enter 1 .exit, .run 1, .run 1, .run 1, .run 1]

def hangS : St := exec cfg (atRest cfg own (oth 0 0) (fun _ => 0) 1) hangOps

/-- What stays so. -/
structure Stuck (s : St) : Prop where
  p1 : s.pc 1 = .exiting 3 false
  p2 : s.pc 2 = .reading 3 0 1
  lk : s.lock 3 = some 2
  dat : s.data 0 = 0
  ct : s.cnt ⟨0, true⟩ ≠ 0
  e1 : s.ext ⟨0, true⟩ = 0
  e0 : s.ext ⟨0, false⟩ = 0
  ng : s.gone = false

theorem Stuck.act {s : St} (h : Stuck s) (a : Act) (ha : ∀ t op, a ≠ .enter t op) (hr : ∀ t, a = .run t → t = 1 ∨ t = 2) : Stuck (act cfg s a) := by
  cases a with
  | enter t op => exact absurd rfl (ha t op)
  | run t =>
    have : step cfg s t = none := by
      rcases hr t rfl with rfl | rfl
      · unfold step; rw [h.p1]; dsimp only; rw [if_pos (by decide), if_neg (by rw [h.lk]; exact fun h => nomatch h)]
      · unfold step; rw [h.p2]; simp only [readNow]; rw [if_neg (by decide), if_pos h.dat, if_neg h.ct]
    simp only [ExitConc.act, this, Option.getD_none]; exact h
  | oread p n =>
    simp only [ExitConc.act]
    split
    · exact h
    · rename_i hp
      have : 0 ≠ p := by rintro rfl; exact hp h.e0
      split
      · exact h
      · exact ⟨h.p1, h.p2, h.lk, (upd_ne _ _ this).trans h.dat, h.ct, h.e1, h.e0, h.ng⟩
  | owrite p n =>
    simp only [ExitConc.act]
    split
    · exact h
    · rename_i hp
      have : 0 ≠ p := by rintro rfl; exact hp h.e1
      split
      · exact ⟨h.p1, h.p2, h.lk, (upd_ne _ _ this).trans h.dat, h.ct, h.e1, h.e0, h.ng⟩
      · exact h
  | oclose e =>
    simp only [ExitConc.act]
    split
    · exact h
    · rename_i hp
      have n1 : ⟨0, true⟩ ≠ e := by rintro rfl; exact hp h.e1
      have n0 : ⟨0, false⟩ ≠ e := by rintro rfl; exact hp h.e0
      refine ⟨h.p1, h.p2, h.lk, h.dat, ?_, ?_, ?_, h.ng⟩
      · simp only [setc]; rw [if_neg n1]; exact h.ct
      · simp only [setc]; rw [if_neg n1]; exact h.e1
      · simp only [setc]; rw [if_neg n0]; exact h.e0
  | odup e =>
    simp only [ExitConc.act]
    split
    · exact h
    · rename_i hp
      have n1 : ⟨0, true⟩ ≠ e := by rintro rfl; exact hp h.e1
      have n0 : ⟨0, false⟩ ≠ e := by rintro rfl; exact hp h.e0
      refine ⟨h.p1, h.p2, h.lk, h.dat, ?_, ?_, ?_, h.ng⟩
      · simp only [setc]; rw [if_neg n1]; exact h.ct
      · simp only [setc]; rw [if_neg n1]; exact h.e1
      · simp only [setc]; rw [if_neg n0]; exact h.e0

theorem hang_stuck : Stuck hangS := by
  refine ⟨?_, ?_, ?_, ?_, ?_, ?_, ?_, ?_⟩ <;> decide +kernel

theorem hang_reach : Reach cfg true hangS :=
  (Reach.rest own (oth 0 0) (fun _ => 0) 1 own_ok (oth_ok 0 0)).exec hangOps (fun _ _ _ => rfl) (by decide +kernel)

theorem Stuck.exec : ∀ {s : St} (l : List Act), Stuck s → (∀ a ∈ l, (∀ t op, a ≠ .enter t op) ∧ ∀ t, a = .run t → t = 1 ∨ t = 2) →
    Stuck (exec cfg s l)
  | _, [], h, _ => h
  | _, a :: l, h, hl => (h.act a (hl a (.head _)).1 (hl a (.head _)).2).exec l fun b hb => hl b (.tail _ hb)

/-- **C95 fails.**  A thread waits for bytes of a pipe that only its own process can write, and another thread exits: `exit` waits for
the lock of that descriptor, which the reader keeps until there are bytes or no writers, and the write end is a higher descriptor that
`exit` never reaches.  Whatever the two threads and the other processes do from then on, the process is never gone, keeps both ends,
and its `exit` has not returned.  (POSIX: `exit` ends all threads.  Here the caller of the library would have to cancel the reader
first, `lindcancelinit`, `/repo/src/safeposix/dispatcher.rs` 954.) -/
theorem hang_violated : Reach cfg true hangS ∧ InExit hangS 1 ∧
    ∀ l, (∀ a ∈ l, (∀ t op, a ≠ .enter t op) ∧ ∀ t, a = .run t → t = 1 ∨ t = 2) →
      (exec cfg hangS l).gone = false ∧ InExit (exec cfg hangS l) 1 ∧ (exec cfg hangS l).cnt ⟨0, true⟩ ≠ 0 := by
  refine ⟨hang_reach, .inr ⟨_, _, hang_stuck.p1⟩, fun l hl => ?_⟩
  have h := hang_stuck.exec l hl
  exact ⟨h.ng, .inr ⟨_, _, h.p1⟩, h.ct⟩

/-! ## A descriptor made behind the back of exit -/

/-- Another process reads; thread 1 exits, and when it has passed the first slots, thread 2 copies descriptor 4, to slot 0. -/
def leakOps : List Act :=
  [.enter 1 .exit, .run 1, .run 1, .enter 2 (.dup 4), .run 2] ++ List.replicate 8 (.run 1)

def leakS : St := exec cfg (atRest cfg wr4 (oth 1 0) (fun _ => 0) 1) leakOps

theorem leak_reach : Reach cfg false leakS :=
  (Reach.rest wr4 (oth 1 0) (fun _ => 0) 1 wr4_ok (oth_ok 1 0)).exec leakOps (fun _ _ _ => rfl) (by decide +kernel)

/-- What other processes do. -/
def others : Act → Bool
  | .enter _ _ | .run _ => false
  | _ => true

/-- A pipe with a count for writing that nobody will take back: no other process has the end, and it is not 0. -/
structure Waits (s : St) : Prop where
  dat : s.data 0 = 0
  ct : s.cnt ⟨0, true⟩ ≠ 0
  e1 : s.ext ⟨0, true⟩ = 0

theorem Waits.act {s : St} (h : Waits s) (a : Act) (ha : others a = true) : Waits (act cfg s a) := by
  cases a with
  | enter t op => cases ha
  | run t => cases ha
  | oread p n =>
    simp only [ExitConc.act]
    split
    · exact h
    · split
      · exact h
      · refine ⟨?_, h.ct, h.e1⟩
        dsimp only
        rw [upd_apply]; split
        · rename_i e; subst e; rw [h.dat]; exact Nat.zero_sub _
        · exact h.dat
  | owrite p n =>
    simp only [ExitConc.act]
    split
    · exact h
    · rename_i hp
      have : 0 ≠ p := by rintro rfl; exact hp h.e1
      split
      · exact ⟨(upd_ne _ _ this).trans h.dat, h.ct, h.e1⟩
      · exact h
  | oclose e =>
    simp only [ExitConc.act]
    split
    · exact h
    · rename_i hp
      have n1 : ⟨0, true⟩ ≠ e := by rintro rfl; exact hp h.e1
      refine ⟨h.dat, ?_, ?_⟩
      · simp only [setc]; rw [if_neg n1]; exact h.ct
      · simp only [setc]; rw [if_neg n1]; exact h.e1
  | odup e =>
    simp only [ExitConc.act]
    split
    · exact h
    · rename_i hp
      have n1 : ⟨0, true⟩ ≠ e := by rintro rfl; exact hp h.e1
      refine ⟨h.dat, ?_, ?_⟩
      · simp only [setc]; rw [if_neg n1]; exact h.ct
      · simp only [setc]; rw [if_neg n1]; exact h.e1

theorem Waits.exec : ∀ {s : St} (l : List Act), Waits s → l.all others = true → Waits (exec cfg s l)
  | _, [], h, _ => h
  | _, a :: l, h, hl => by
    simp only [List.all_cons, Bool.and_eq_true] at hl
    exact (h.act a hl.1).exec l hl.2

theorem Waits.blocked {s : St} (h : Waits s) {n : Nat} (hn : 0 < n) : readAnswer s 0 n = .blocked := by
  unfold readAnswer readNow
  rw [if_neg (by omega), if_pos h.dat, if_neg h.ct]

/-- **C95 fails.**  A thread that copies a descriptor while another thread exits gets a slot that `exit` has already passed: the process
is gone, nobody holds the write end of the pipe any more, yet it is counted once, and the process that reads the pipe waits for ever
instead of being told end of file. -/
theorem leak_violated : Reach cfg false leakS ∧ leakS.gone = true ∧ leakS.ext ⟨0, true⟩ = 0 ∧ leakS.ext ⟨0, false⟩ = 1 ∧
    ∀ l n, l.all others = true → 0 < n → readAnswer (exec cfg leakS l) 0 n = .blocked := by
  refine ⟨leak_reach, by decide +kernel, by decide +kernel, by decide +kernel, fun l n hl hn => ?_⟩
  have h : Waits leakS := by refine ⟨?_, ?_, ?_⟩ <;> decide +kernel
  exact (h.exec l hl).blocked hn

/-! ## Closing what exit closes -/

/-- Thread 2 is between the two parts of `close 4` when thread 1, in `exit`, comes to descriptor 4. -/
def doubleOps : List Act :=
  [.enter 2 (.close 4), .run 2, .enter 1 .exit] ++ List.replicate 9 (.run 1) ++ [.run 2]

/-- Another process can read the pipe and a third can write to it. -/
def doubleS : St := exec cfg (atRest cfg wr4 (oth 1 1) (fun _ => 0) 1) doubleOps

/-- **C95 fails.**  A thread closes a descriptor while another thread exits: the end is given back twice, and the reader is told end of
file although a third process still has the pipe open for writing, and can write to it. -/
theorem double_violated : doubleS.gone = true ∧ doubleS.ext ⟨0, true⟩ = 1 ∧ readAnswer doubleS 0 1 = .ok 0 ∧
    readAnswer (act cfg doubleS (.owrite 0 1)) 0 1 = .ok 1 := by
  refine ⟨?_, ?_, ?_, ?_⟩ <;> decide +kernel

/-- No other process can write to the pipe. -/
def wrapS : St := exec cfg (atRest cfg wr4 (oth 1 0) (fun _ => 0) 1) doubleOps

/-- **C95 fails.**  The same when the process had the last write end: the counter goes below 0, to 4294967295, and the reader waits for
ever. -/
theorem wrap_violated : wrapS.gone = true ∧ wrapS.ext ⟨0, true⟩ = 0 ∧ wrapS.cnt ⟨0, true⟩ = 4294967295 ∧
    ∀ l n, l.all others = true → 0 < n → readAnswer (exec cfg wrapS l) 0 n = .blocked := by
  refine ⟨by decide +kernel, by decide +kernel, by decide +kernel, fun l n hl hn => ?_⟩
  have h : Waits wrapS := by refine ⟨?_, ?_, ?_⟩ <;> decide +kernel
  exact (h.exec l hl).blocked hn

/-! ## Cases that the theorems speak about -/

/-- Thread 2 is reading from another process when thread 1 exits; `exit` waits, the other process writes, `exit` goes on. -/
def goodOps : List Act :=
  [.enter 2 (.read 3 4), .run 2, .enter 1 .exit, .run 1, .run 1, .run 1, .run 1, .run 1, .owrite 0 2, .run 2] ++ List.replicate 9 (.run 1)

def good (k : Nat) : St := exec cfg (atRest cfg own (oth 1 1) (fun _ => 0) 1) (goodOps.take k)

theorem good_reach (q : Bool) {k : Nat} (h : carefulAll cfg q (atRest cfg own (oth 1 1) (fun _ => 0) 1) (goodOps.take k) = true) : Reach cfg q (good k) :=
  (Reach.rest own (oth 1 1) (fun _ => 0) 1 own_ok (oth_ok 1 1)).exec _ (fun _ _ _ => rfl) h

/-- `gives_back_partial`, `leak_exact_partial`, `others_counted_partial`: reached, gone, with counts that are not 0. -/
example : Reach cfg true (good 19) ∧ (good 19).gone = true ∧ (good 19).cnt ⟨0, true⟩ = 1 ∧ (good 19).cnt ⟨0, false⟩ = 1 :=
  ⟨good_reach true (by decide +kernel), by decide +kernel, by decide +kernel, by decide +kernel⟩

/-- `leak_exact_partial`, with a descriptor too many. -/
example : Reach cfg false leakS ∧ leakS.gone = true ∧ leakS.cnt ⟨0, true⟩ = 1 ∧ held cfg leakS ⟨0, true⟩ = 1 :=
  ⟨leak_reach, by decide +kernel, by decide +kernel, by decide +kernel⟩

/-- `exit_waits_iff`: it waits at descriptor 3 for thread 2. -/
example : Reach cfg true (good 7) ∧ (good 7).pc 1 = .exiting 3 false ∧ (step cfg (good 7) 1).isNone = true ∧ (good 7).pc 2 = .reading 3 0 4 :=
  ⟨good_reach true (by decide +kernel), by decide +kernel, by decide +kernel, by decide +kernel⟩

/-- `exit_nears`: the bytes came, and it goes on. -/
example : Reach cfg true (good 10) ∧ (good 10).pc 1 = .exiting 3 false ∧ (step cfg (good 10) 1).isSome = true ∧
    (good 10).log = [(2, .read 3 4, .ok 2)] :=
  ⟨good_reach true (by decide +kernel), by decide +kernel, by decide +kernel, by decide +kernel⟩

/-- `no_early_eof_partial`: end of file, while the last write end is being closed by `exit`. -/
def eofOps : List Act := [.enter 1 .exit] ++ List.replicate 6 (.run 1)

def eofS (k : Nat) : St := exec cfg (atRest cfg wr4 (oth 1 0) (fun _ => 0) 1) (eofOps ++ List.replicate k (.run 1))

theorem eof_reach {k : Nat} (h : carefulAll cfg true (atRest cfg wr4 (oth 1 0) (fun _ => 0) 1) (eofOps ++ List.replicate k (.run 1)) = true) :
    Reach cfg true (eofS k) :=
  (Reach.rest wr4 (oth 1 0) (fun _ => 0) 1 wr4_ok (oth_ok 1 0)).exec _ (fun _ _ _ => rfl) h

example : Reach cfg true (eofS 0) ∧ readAnswer (eofS 0) 0 1 = .ok 0 ∧ (eofS 0).slot 4 = some ⟨0, true⟩ ∧ (eofS 0).pc 1 = .exiting 4 true :=
  ⟨eof_reach (by decide +kernel), by decide +kernel, by decide +kernel, by decide +kernel⟩

/-- `eof_after_partial`. -/
example : Reach cfg true (eofS 3) ∧ (eofS 3).gone = true ∧ (eofS 3).ext ⟨0, true⟩ = 0 ∧ (eofS 3).ext ⟨0, false⟩ = 1 :=
  ⟨eof_reach (by decide +kernel), by decide +kernel, by decide +kernel, by decide +kernel⟩

/-- `exit_alone`: a process at rest with both ends of a pipe that others have too. -/
example : Reach cfg true (good 0) ∧ (∀ u, (good 0).pc u = .idle) ∧ (good 0).gone = false ∧ (good 0).cnt ⟨0, true⟩ = 2 :=
  ⟨good_reach true (by decide +kernel), fun _ => rfl, rfl, by decide +kernel⟩

/-- `read_takes`: the bytes are there, and thread 2 has not taken them. -/
example : (good 9).pc 2 = .reading 3 0 4 ∧ (good 9).data 0 = 2 ∧ (step cfg (good 9) 2).isSome = true := by decide +kernel

/-- `write_puts`: a write of more than there is room for. -/
example : (exec cfg (atRest cfg wr4 (oth 1 0) (fun _ => 0) 1) [.enter 2 (.write 4 20), .run 2]).pc 2 = .writing 4 0 20 20 ∧
    (exec cfg (atRest cfg wr4 (oth 1 0) (fun _ => 0) 1) [.enter 2 (.write 4 20), .run 2, .run 2]).data 0 = cfg.cap := by decide +kernel

end Verif.ExitConc
