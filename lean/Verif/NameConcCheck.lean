import Verif.NameConcProps
import Verif.NameConcWitness

/-! Schedules that meet the conditions of `linearizable_partial`, and what it cannot promise. -/

namespace Verif.NameConc
open Verif.Path Verif.Fs

/-- `Disciplined`, computed: all threads are below `n`. -/
def allowedB (n : Nat) (s : State) : Act → Bool
  | .start t c =>
    decide (t < n) && c.names.all (fun p => p.all (fun m => decide (Good m))) &&
    (List.range n).all (fun u => decide (u = t) || match s.call u with
      | none => true
      | some c' => c.changes.all (fun p => c'.names.all (fun q => !p.isPrefixOf q)) &&
          c'.changes.all (fun p => c.names.all (fun q => !p.isPrefixOf q))) &&
    match c with
    | .link _ new => decide (new ≠ [])
    | .close i => decide (0 < s.held i)
    | _ => true
  | .go t =>
    decide (t < n) && match s.pc t with
    | .unlinkDec _ _ par => match s.fs.inodes par with
      | none => true
      | some pd => decide (pd.mode &&& sIWALL ≠ 0)
    | .renameEdit _ new _ par => match s.fs.inodes par, new.getLast? with
      | some pd, some m => (entGet pd.ents m).isNone
      | _, _ => true
    | .rmdirNode _ i _ => match s.fs.inodes i with
      | none => true
      | some nd => modeIsDir nd.mode
    | _ => true

def disciplinedB (n : Nat) (s : State) : List Act → Bool
  | [] => true
  | a :: as => allowedB n s a && disciplinedB n (step s a) as

theorem apartB {c c' : Call} (h : (c.changes.all (fun p => c'.names.all (fun q => !p.isPrefixOf q)) &&
    c'.changes.all (fun p => c.names.all (fun q => !p.isPrefixOf q))) = true) : Apart c c' := by
  simp only [Bool.and_eq_true, List.all_eq_true, Bool.not_eq_true', ← Bool.not_eq_true, List.isPrefixOf_iff_prefix] at h
  exact h

theorem allowed_of_B {n : Nat} {s : State} {a : Act} (hn : ∀ u, n ≤ u → s.call u = none) (h : allowedB n s a = true) : Allowed s a := by
  cases a with
  | start t c =>
    simp only [allowedB, Bool.and_eq_true, List.all_eq_true, decide_eq_true_eq, List.mem_range, Bool.or_eq_true] at h
    obtain ⟨⟨⟨-, h2⟩, h3⟩, h4⟩ := h
    refine ⟨h2, fun u c' hu hc => ?_, ?_⟩
    · rcases Nat.lt_or_ge u n with hlt | hge
      · have := (h3 u hlt).resolve_left hu
        rw [hc] at this
        exact apartB this
      · rw [hn u hge] at hc; cases hc
    · cases c <;> first | trivial | simpa using h4
  | go t =>
    simp only [allowedB, Bool.and_eq_true] at h
    replace h := h.2
    show match s.pc t with
      | .unlinkDec _ _ par => ∀ pd, s.fs.inodes par = some pd → pd.mode &&& sIWALL ≠ 0
      | .renameEdit _ new _ par => ∀ pd n, s.fs.inodes par = some pd → new.getLast? = some n → entGet pd.ents n = none
      | .rmdirNode _ i _ => ∀ nd, s.fs.inodes i = some nd → modeIsDir nd.mode
      | _ => True
    split
    · rename_i hpc; rw [hpc] at h
      intro pd hpd; simpa [hpd] using h
    · rename_i hpc; rw [hpc] at h
      intro pd m hpd hm; simpa [hpd, hm] using h
    · rename_i hpc; rw [hpc] at h
      intro nd hnd; simpa [hnd] using h
    · trivial

theorem step_call {s : State} {a : Act} {u : Nat} (hu : u ≠ a.tid) : (step s a).call u = s.call u := by
  unfold step
  split
  · rfl
  · cases a with
    | go t => exact (Mine.go_other hu).2
    | start t c =>
      dsimp only
      split
      · split
        · rfl
        · exact upd_ne _ _ hu
      · rfl

theorem disciplined_of_B {n : Nat} {s : State} {as : List Act} (hn : ∀ u, n ≤ u → s.call u = none) (h : disciplinedB n s as = true) :
    Disciplined s as := by
  induction as generalizing s with
  | nil => trivial
  | cons a as ih =>
    simp only [disciplinedB, Bool.and_eq_true] at h
    refine ⟨allowed_of_B hn h.1, ih (fun u hu => ?_) h.2⟩
    have ht : a.tid < n := by
      have := h.1
      cases a <;> simp only [allowedB, Bool.and_eq_true, decide_eq_true_eq] at this
      · exact this.1.1.1
      · exact this.1
    have : (step s a).call u = s.call u := step_call (by omega)
    rw [this]; exact hn u hu


/-- The descriptors on each inode, as the kernel counts them. -/
def refs (i : Nat) : Nat := Kernel.tot Kernel.tree [] (.ino i)

theorem tree_inv : FsInv Kernel.tree.fs refs := Kernel.tree_reach.inv.fs

/-- Threads `0 … n - 1` in turn, `k` times. -/
def turns (n k : Nat) : List Act := (List.replicate k ((List.range n).map Act.go)).flatten

/-- Six calls in one directory at the same time: `mkdir /d/x`, `link /d/f /d/h`, `unlink /d/g`, `stat /d`, `rmdir /d/e` (which is open)
and the close of the descriptor on the file `/d/f`; then `rename /d/h /d/k`, `open /d/w` (creating) and `chmod /d/f`.  All of them
advance one critical section at a time in turn. -/
def busy : List Act :=
  [.start 0 (.mkdir dx 0o755#32), .start 1 (.link df dh), .start 2 (.unlink dg), .start 3 (.stat [[100]]),
    .start 4 (.rmdir [[100], [101]]), .start 5 (.close 10)] ++ turns 6 14 ++
  [.start 0 (.rename dh dk), .start 1 (.open [[100], [119]] 0o102#32 0o644#32), .start 2 (.chmod df 0o600#32)] ++ turns 6 14

/-- `busy` meets the hypotheses of `linearizable_partial` and of `rest_sound_partial`, and its results are these. -/
example : FsInv Kernel.tree.fs refs ∧ Disciplined (init Kernel.tree.fs refs) busy ∧
    (trace (init Kernel.tree.fs refs) busy).length = 18 ∧
    (List.range 6).all (fun t => decide ((run (init Kernel.tree.fs refs) busy).pc t = .idle)) = true ∧
    (List.range 6).map (run (init Kernel.tree.fs refs) busy).res =
      [some (.ret (.ok 0)), some (.opened 13 0), some (.ret (.ok 0)), some (.stat { ino := 9, mode := 0o40777#32, nlink := 6, size := 0, rdev := 0#64 }),
        some (.ret (.ok 0)), some (.ret (.ok 0))] := by
  refine ⟨tree_inv, disciplined_of_B (n := 6) (fun _ _ => rfl) ?_, ?_, ?_, ?_⟩
  all_goals decide +kernel

/-- The number of links in a result of stat. -/
def nlinkOf : Out → Option Nat
  | .stat st => some st.nlink
  | _ => none

/-- What a list of calls, one after the other, returns. -/
def inTurn (fs : Fs) : List Call → List (Option Nat)
  | [] => []
  | c :: cs => match atomic fs c with
    | none => []
    | some (fs', o) => nlinkOf o :: inTurn fs' cs

/-- `link /d/f /d/h` until the count of the file has gone up; then another thread asks for `/d/f` and for `/d`; then the link ends. -/
def halfLink : List Act := [.start 0 (.link df dh)] ++ by_ 0 5 ++ whole 1 (.stat df) ++ whole 1 (.stat [[100]]) ++ by_ 0 20

/-- C65, violated: the numbers of links that `stat` reports.  While `link /d/f /d/h` is under way another thread asks for `/d/f`, and the
new link is counted already (3); then it asks for `/d`, and the new entry is not counted yet (6).  The calls are
`Disciplined`, but no order of the three explains the two answers. -/
theorem stat_counts_violated : Disciplined (init Kernel.tree.fs refs) halfLink ∧
    (trace (init Kernel.tree.fs refs) halfLink).filterMap (fun e => match e with
      | .ret _ o => some (nlinkOf o)
      | .call _ _ => none) = [some 3, some 6, none] ∧
    inTurn Kernel.tree.fs [.link df dh, .stat df, .stat [[100]]] = [none, some 3, some 7] ∧
    inTurn Kernel.tree.fs [.stat df, .link df dh, .stat [[100]]] = [some 2, none, some 7] ∧
    inTurn Kernel.tree.fs [.stat df, .stat [[100]], .link df dh] = [some 2, some 6, none] := by
  refine ⟨disciplined_of_B (n := 2) (fun _ _ => rfl) ?_, ?_, ?_, ?_, ?_⟩
  all_goals decide +kernel

end Verif.NameConc
