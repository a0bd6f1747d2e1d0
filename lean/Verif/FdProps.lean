import Verif.KernelInit
import Verif.PipeLemmas

/-!
# Descriptors, fork, exec: C05, C08, C09, C10, C11, C12, C50

Specifications are stated on descriptor tables (`Nat → Option Desc`), independently of the helper
functions of the model.
-/

namespace Verif.Kernel
open Verif.Path Verif.Fs
open Verif.Pipe (Pipe End)

set_option linter.unusedSimpArgs false

/-! ## Specification -/

/-- `fd` is the lowest free number not below `start`. -/
def Lowest (t : Table) (start fd : Nat) : Prop :=
  start ≤ fd ∧ fd < 1024 ∧ t fd = none ∧ ∀ j, start ≤ j → j < fd → t j ≠ none

/-- No number from `start` on is free. -/
def Full (t : Table) (start : Nat) : Prop := ∀ j, start ≤ j → j < 1024 → t j ≠ none

/-- The two descriptors designate the same object with the same access. -/
def SameObject : Desc → Desc → Prop
  | .file i _ f, .file j _ g => i = j ∧ f &&& 3#32 = g &&& 3#32
  | .pipe i f, .pipe j g => i = j ∧ f &&& 3#32 = g &&& 3#32
  | .stream n _, .stream m _ => n = m
  | .epoll _, .epoll _ => True
  | .sock _, .sock _ => True
  | _, _ => False

/-- The object of a descriptor exists; a pipe knows that this end is open. -/
def Alive (s : State) : Desc → Prop
  | .file i _ _ => ∃ nd, s.fs.inodes i = some nd
  | .pipe id f => ∃ p, s.pipes id = some p ∧ (f &&& 3#32 = 0#32 ∧ 0 < p.rref ∨ f &&& 3#32 = 1#32 ∧ 0 < p.wref)
  | _ => True

/-- The slot is an end of pipe `id` with access mode `acc` (0 read, 1 write). -/
def isEndOf (id : Nat) (acc : BitVec 32) : Option Desc → Bool
  | some (.pipe id' f) => id' == id && f &&& 3#32 == acc
  | _ => false

/-- The slot designates inode `i`. -/
def isFileOf (i : Nat) : Option Desc → Bool
  | some (.file j _ _) => j == i
  | _ => false

/-- How many slots, over all cages and all numbers, satisfy `p`. -/
def countSlots (cages : Nat → Option Cage) (p : Option Desc → Bool) : Nat :=
  ((List.range 1024).map (fun c => match cages c with
    | none => 0
    | some cg => (List.range 1024).countP (fun fd => p (cg.fds fd)))).sum

/-- The cage with one slot of its table replaced. -/
def Cage.withSlot (cg : Cage) (fd : Nat) (o : Option Desc) : Cage := { cg with fds := upd cg.fds fd o }

/-- Marked close-on-exec. -/
def Cloexec (d : Desc) : Prop := d.flags &&& 0o2000000#32 ≠ 0

instance (d : Desc) : Decidable (Cloexec d) := inferInstanceAs (Decidable (_ ≠ _))

/-! ## Lemmas -/

theorem sumTo_range (f : Nat → Nat) (n : Nat) : sumTo f n = ((List.range n).map f).sum := by
  induction n with
  | zero => rfl
  | succ n ih => simp only [sumTo, List.range_succ, List.map_append, List.map_cons, List.map_nil,
      List.sum_append, List.sum_cons, List.sum_nil, ih]; omega

theorem countP_range (p : Nat → Bool) (n : Nat) :
    sumTo (fun k => if p k then 1 else 0) n = (List.range n).countP p := by
  induction n with
  | zero => rfl
  | succ n ih =>
    rw [List.range_succ, List.countP_append, ← ih]
    simp only [sumTo, List.countP_cons, List.countP_nil]
    omega

theorem countAux (r : Res) (cages : Nat → Option Cage) (p : Option Desc → Bool)
    (h : ∀ o, slotW r o = if p o then 1 else 0) (m n : Nat) :
    sumTo (fun c => match cages c with | none => 0 | some cg => sumTo (fun fd => slotW r (cg.fds fd)) n) m
      = ((List.range m).map (fun c => match cages c with
        | none => 0
        | some cg => (List.range n).countP (fun fd => p (cg.fds fd)))).sum := by
  rw [sumTo_range]
  congr 2
  funext c
  cases cages c with
  | none => rfl
  | some cg =>
    show sumTo _ n = List.countP _ _
    rw [← countP_range]
    exact sumTo_congr (fun k _ => h _)

theorem cagesW_count (r : Res) (cages : Nat → Option Cage) (p : Option Desc → Bool)
    (h : ∀ o, slotW r o = if p o then 1 else 0) : cagesW r cages = countSlots cages p := by
  unfold countSlots
  rw [← countAux r cages p h]
  unfold cagesW maxCage
  congr 1
theorem endOf_eq (f : BitVec 32) : endOf f =
    if f &&& 3#32 = 0#32 then some .read else if f &&& 3#32 = 1#32 then some .write else none := by
  unfold endOf isRdonly isWronly oRDWRFLAGS
  simp only [beq_iff_eq]

theorem slotW_end (id : Nat) (e : End) (o : Option Desc) : slotW (.pend id e) o =
    if isEndOf id (match e with | .read => 0#32 | .write => 1#32) o then 1 else 0 := by
  cases o with
  | none => rfl
  | some d =>
    cases d with
    | pipe id' f =>
      simp only [slotW, weight, isEndOf, endOf_eq]
      by_cases h : id' = id
      · cases e
        · by_cases h0 : f &&& 3#32 = 0#32
          · simp [h, h0]
          · by_cases h1 : f &&& 3#32 = 1#32 <;> simp [h, h0, h1]
        · by_cases h0 : f &&& 3#32 = 0#32
          · simp [h, h0]
          · by_cases h1 : f &&& 3#32 = 1#32 <;> simp [h, h0, h1]
      · simp [h]
    | _ => rfl

theorem slotW_ino (i : Nat) (o : Option Desc) : slotW (.ino i) o = if isFileOf i o then 1 else 0 := by
  cases o with
  | none => rfl
  | some d => cases d <;> simp [slotW, weight, isFileOf]

theorem Inv.alive {s : State} (h : Inv s []) {c fd : Nat} {cg : Cage} {d : Desc}
    (hc : s.cages c = some cg) (hd : cg.fds fd = some d) : Alive s d := by
  have hok := ((h.cage c cg hc).2.1 fd d hd).2
  cases d with
  | file i pos f => obtain ⟨nd, h1, -⟩ := h.fs.held (h.file_held hc hd); exact ⟨nd, h1⟩
  | pipe id f =>
    obtain ⟨p, hp⟩ := Option.isSome_iff_exists.1 ((h.pex id).2 hok.1)
    obtain ⟨e, he⟩ := endOf_cases hok.2
    have hw := h.held hc hd (.pend id e)
    have hr := h.pipe id p hp
    simp only [weight, he, and_self, if_true] at hw
    refine ⟨p, hp, ?_⟩
    rw [endOf_eq] at he
    split at he
    · rename_i h0; cases he; exact .inl ⟨h0, by omega⟩
    split at he
    · rename_i h0; cases he; exact .inr ⟨h0, by omega⟩
    · cases he
  | _ => trivial

/-! ## C05 -/

/-- C05.  In every reachable state a pipe's counts are the numbers of open descriptors, over all
cages, that are its read and write end. -/
theorem pipe_refs_partial {s : State} (h : Reach s) {id : Nat} {p : Pipe} (hp : s.pipes id = some p) :
    p.rref = countSlots s.cages (isEndOf id 0#32) ∧ p.wref = countSlots s.cages (isEndOf id 1#32) := by
  have := h.inv.pipe id p hp
  simp only [tot, handW, Nat.add_zero] at this
  rw [cagesW_count _ _ _ (slotW_end id .read), cagesW_count _ _ _ (slotW_end id .write)] at this
  exact this

/-- C05.  A read of an empty pipe gives end of file exactly if no descriptor anywhere is a write
end of it. -/
theorem pipe_eof_partial {s : State} (h : Reach s) {c : Nat} {cg : Cage} {fd n id : Nat} {f : BitVec 32}
    {p : Pipe} (hc : s.cages c = some cg) (hf : fd < 1024) (hd : cg.fds fd = some (.pipe id f))
    (hr : f &&& 3#32 = 0#32) (hp : s.pipes id = some p) (hn : 0 < n) (hb : p.buf = []) :
    (step s c (.read fd n)).2.ret = .ok 0 ↔ countSlots s.cages (isEndOf id 1#32) = 0 := by
  rw [← (pipe_refs_partial h hp).2]
  have hg : getFd cg.fds fd = some (some (.pipe id f)) := by
    have : ¬ ((fd : Int) < 0 ∨ (fd : Int) ≥ maxFd) := by simp only [maxFd]; omega
    simp only [getFd, if_neg this, Int.toNat_natCast, hd]
  have hw : isWronly f = false := by simp only [isWronly, oRDWRFLAGS]; rw [hr]; decide
  simp only [step, hc, read, hg, hw, hp, Bool.false_eq_true, if_false, Pipe.Pipe.readNow, hb,
    List.length_nil, if_neg (by omega : ¬ n = 0), if_true]
  split
  · simp [*]
  · rename_i h0
    split <;> simp [h0]

/-- C05.  A write of some bytes gives EPIPE exactly if no descriptor anywhere is a read end. -/
theorem pipe_epipe_partial {s : State} (h : Reach s) {c : Nat} {cg : Cage} {fd id : Nat} {f : BitVec 32}
    {p : Pipe} {data : List UInt8} (hc : s.cages c = some cg) (hf : fd < 1024)
    (hd : cg.fds fd = some (.pipe id f)) (hr : f &&& 3#32 = 1#32) (hp : s.pipes id = some p)
    (hn : data ≠ []) :
    (step s c (.write fd data)).2.ret = .err .EPIPE ↔ countSlots s.cages (isEndOf id 0#32) = 0 := by
  rw [← (pipe_refs_partial h hp).1]
  have hg : getFd cg.fds fd = some (some (.pipe id f)) := by
    have : ¬ ((fd : Int) < 0 ∨ (fd : Int) ≥ maxFd) := by simp only [maxFd]; omega
    simp only [getFd, if_neg this, Int.toNat_natCast, hd]
  have hw : isRdonly f = false := by simp only [isRdonly, oRDWRFLAGS]; rw [hr]; decide
  simp only [step, hc, write, hg, hw, hp, Bool.false_eq_true, if_false, Out.r]
  exact Pipe.writeNow_epipe p data _ hn

/-! ## C08 -/

/-- Where a call that makes one descriptor starts its search for a number. -/
def Op.start : Op → Option Nat
  | .openP _ _ _ => some 0
  | .dup _ => some 0
  | .fcntl _ cmd arg => if cmd = 0 ∧ 0 ≤ arg.toInt then some arg.toNat else none
  | .socket _ _ => some 0
  | .epollCreate _ => some 0
  | _ => none

theorem openP_failed {fs fs' : Fs} {p : List Name} {fl m : BitVec 32} {r : Ret}
    (h : fs.openP p fl m = (fs', .failed r)) : (∀ v, r ≠ .ok v) ∧ r ≠ .err .ENFILE := by
  simp only [Fs.openP, Fs.openExisting] at h
  repeat' split at h
  all_goals first
    | (cases h; exact ⟨by simp, by simp⟩)
    | cases h
    | skip

theorem setFd_at {s : State} {c fd : Nat} {cg : Cage} {o : Option Desc} (hc : s.cages c = some cg) :
    (s.setFd c fd o).cages = upd s.cages c (some (cg.withSlot fd o)) := by
  simp only [State.setFd, hc, State.setCage, Cage.withSlot]

theorem dupFrom_ok {s : State} {c : Nat} {cg : Cage} {d : Desc} {start : Nat} {v : Int}
    (hc : s.cages c = some cg) (h : (dupFrom s c cg d start).2.ret = .ok v) :
    ∃ fd : Nat, v = fd ∧ nextFd cg.fds start = some fd ∧ d.isEpoll = false ∧
      (dupFrom s c cg d start).1.cages = upd s.cages c (some (cg.withSlot fd
        (some (d.setFlags (d.flags &&& ~~~oCLOEXEC))))) := by
  simp only [dupFrom] at h ⊢
  split at h
  · cases h
  · rename_i fd hn
    split at h
    · cases h
    · rename_i he
      simp only [if_neg he]
      simp only [State.putCopy] at h ⊢
      split at h
      · cases h
      · rename_i s1 hb
        cases h
        refine ⟨fd, rfl, hn, by simpa using he, ?_⟩
        rw [setFd_at (cg := cg) (by rw [(bump_same hb).cages, hc]), (bump_same hb).cages]

/-- C08.  A call that makes a descriptor returns the lowest number that was free (for `F_DUPFD`:
the lowest free number not below the argument); that slot is filled and no other slot and
no other cage changes.  Excluded: `dup(0)` (see `dup_zero_violated`) and `accept`. -/
theorem new_fd_lowest_partial {s : State} {c : Nat} {cg : Cage} {op : Op} {start : Nat} {v : Int}
    (hc : s.cages c = some cg) (hs : op.start = some start) (h0 : op ≠ .dup 0)
    (h : (step s c op).2.ret = .ok v) :
    ∃ (fd : Nat) (d : Desc), v = fd ∧ Lowest cg.fds start fd ∧
      (step s c op).1.cages = upd s.cages c (some (cg.withSlot fd (some d))) := by
  cases op <;> simp only [Op.start, Option.some.injEq, reduceCtorEq] at hs
  case openP p fl m =>
    subst hs
    simp only [step, hc, openSys] at h ⊢
    split at h
    · cases h
    rename_i hp
    rw [if_neg hp]
    split at h
    · cases h
    rename_i fd hn
    split at h
    · rename_i fs r ho
      exact absurd h ((openP_failed ho).1 v)
    · rename_i fs i sz ho
      cases h
      exact ⟨fd, _, rfl, nextFd_some hn, setFd_at (s := { s with fs := fs }) hc⟩
  case dup fd =>
    subst hs
    have hz : fd ≠ 0 := fun e => h0 (by rw [e])
    simp only [step, hc, dup, if_neg hz] at h ⊢
    split at h
    · cases h
    · cases h
    · obtain ⟨fd, e1, e2, -, e4⟩ := dupFrom_ok hc h
      exact ⟨fd, _, e1, nextFd_some e2, e4⟩
  case fcntl fd cmd arg =>
    by_cases hcmd : cmd = 0 ∧ 0 ≤ arg.toInt
    case neg => rw [if_neg hcmd] at hs; cases hs
    rw [if_pos hcmd] at hs
    obtain ⟨rfl, ha⟩ := hcmd
    cases hs
    simp only [step, hc, fcntl] at h ⊢
    split at h
    · cases h
    · cases h
    · simp (decide := true) only [if_false, false_and, true_and, ge_iff_le, ha, if_true] at h ⊢
      obtain ⟨fd, e1, e2, -, e4⟩ := dupFrom_ok hc h
      exact ⟨fd, _, e1, nextFd_some e2, e4⟩
  case socket nb ce =>
    subst hs
    simp only [step, hc, putNew] at h ⊢
    split at h
    · cases h
    rename_i fd hn
    cases h
    exact ⟨fd, _, rfl, nextFd_some hn, setFd_at hc⟩
  case epollCreate n =>
    subst hs
    simp only [step, hc, putNew] at h ⊢
    split at h
    · cases h
    rename_i hp
    rw [if_neg hp]
    split at h
    · cases h
    rename_i fd hn
    cases h
    exact ⟨fd, _, rfl, nextFd_some hn, setFd_at hc⟩

/-- The arguments of a descriptor-making call are valid. -/
def ValidNew (cg : Cage) : Op → Prop
  | .openP p _ _ => p ≠ []
  | .dup fd => 0 < fd ∧ fd < 1024 ∧ cg.fds fd.toNat ≠ none
  | .fcntl fd _ _ => 0 ≤ fd ∧ fd < 1024 ∧ cg.fds fd.toNat ≠ none
  | .epollCreate n => 0 < n
  | _ => True

theorem getFd_in {t : Table} {fd : Int} (h0 : 0 ≤ fd) (h1 : fd < 1024) : getFd t fd = some (t fd.toNat) := by
  have : ¬ (fd < 0 ∨ fd ≥ maxFd) := by simp only [maxFd]; omega
  simp only [getFd, if_neg this]

theorem getFd_nat {t : Table} {fd : Nat} (h1 : fd < 1024) : getFd t fd = some (t fd) := by
  rw [getFd_in (by omega) (by omega)]; simp

theorem dupFrom_enfile {s : State} {c : Nat} {cg : Cage} {d : Desc} {start : Nat} :
    (dupFrom s c cg d start).2.ret = .err .ENFILE ↔ nextFd cg.fds start = none := by
  simp only [dupFrom]
  split
  · simp [Out.r, *]
  · rename_i fd hn
    simp only [hn]
    split
    · simp [Out.r]
    · simp only [State.putCopy]
      split <;> simp [Out.r]

theorem nextFd_full {t : Table} {start : Nat} : nextFd t start = none ↔ Full t start := by
  constructor
  · exact nextFd_none
  · intro h
    cases e : nextFd t start with
    | none => rfl
    | some fd =>
      obtain ⟨h1, h2, h3, -⟩ := nextFd_some e
      exact absurd h3 (h fd h1 h2)

/-- C08.  With valid arguments, such a call fails with ENFILE exactly if no number is free. -/
theorem new_fd_enfile_partial {s : State} {c : Nat} {cg : Cage} {op : Op} {start : Nat}
    (hc : s.cages c = some cg) (hs : op.start = some start) (hv : ValidNew cg op) :
    (step s c op).2.ret = .err .ENFILE ↔ Full cg.fds start := by
  rw [← nextFd_full]
  cases op <;> simp only [Op.start, Option.some.injEq, reduceCtorEq] at hs <;> simp only [ValidNew] at hv
  case openP p fl m =>
    subst hs
    simp only [step, hc, openSys, if_neg hv]
    split
    · simp [Out.r, *]
    rename_i fd hn
    rw [hn]
    split
    · rename_i fs r ho
      simp [Out.r, (openP_failed ho).2]
    · simp [Out.r]
  case dup fd =>
    subst hs
    obtain ⟨d, hd⟩ := Option.ne_none_iff_exists'.1 hv.2.2
    simp only [step, hc, dup, if_neg (by omega : ¬ fd = 0), getFd_in (t := cg.fds) (by omega) hv.2.1, hd]
    exact dupFrom_enfile
  case fcntl fd cmd arg =>
    by_cases hcmd : cmd = 0 ∧ 0 ≤ arg.toInt
    case neg => rw [if_neg hcmd] at hs; cases hs
    rw [if_pos hcmd] at hs
    obtain ⟨rfl, ha⟩ := hcmd
    cases hs
    obtain ⟨d, hd⟩ := Option.ne_none_iff_exists'.1 hv.2.2
    simp (decide := true) only [step, hc, fcntl, getFd_in (t := cg.fds) hv.1 hv.2.1, hd, if_false,
      false_and, true_and, ge_iff_le, ha, if_true]
    exact dupFrom_enfile
  case socket nb ce =>
    subst hs
    simp only [step, hc, putNew]
    split <;> simp [Out.r, *]
  case epollCreate n =>
    subst hs
    simp only [step, hc, putNew, if_neg (by omega : ¬ n ≤ 0)]
    split <;> simp [Out.r, *]

/-- C08.  `pipe2` returns the two lowest free numbers, in order, and fills exactly these slots. -/
theorem pipe2_fds {s : State} {c : Nat} {cg : Cage} {fl : BitVec 32} {v : Int}
    (hc : s.cages c = some cg) (h : (step s c (.pipe2 fl)).2.ret = .ok v) :
    ∃ (r w : Nat) (fr fw : BitVec 32), (step s c (.pipe2 fl)).2.pair = (r, w) ∧ r < w ∧
      Lowest cg.fds 0 r ∧ Lowest cg.fds (r + 1) w ∧ fr &&& 3#32 = 0#32 ∧ fw &&& 3#32 = 1#32 ∧
      (step s c (.pipe2 fl)).1.cages = upd s.cages c (some
        ((cg.withSlot r (some (.pipe s.npipe fr))).withSlot w (some (.pipe s.npipe fw)))) := by
  simp only [step, hc, pipe2] at h ⊢
  split at h
  · cases h
  rename_i r hr
  split at h
  · cases h
  rename_i w hw
  obtain ⟨-, r2, r3, r4⟩ := nextFd_some hr
  obtain ⟨-, w2, w3, w4⟩ := nextFd_some hw
  have hne : w ≠ r := by rintro rfl; simp at w3
  rw [upd_ne _ _ hne] at w3
  have hlt : r < w := by
    rcases Nat.lt_trichotomy r w with h | h | h
    · exact h
    · exact absurd h.symm hne
    · exact absurd w3 (r4 w (by omega) h)
  refine ⟨r, w, 0#32 ||| (fl &&& (oCLOEXEC ||| oNONBLOCK)), 1#32 ||| (fl &&& (oCLOEXEC ||| oNONBLOCK)),
    rfl, hlt, ⟨by omega, r2, r3, r4⟩, ⟨by omega, w2, w3, ?_⟩, ?_, ?_, ?_⟩
  · intro j h1 h2
    have := w4 j (by omega) h2
    rwa [upd_ne _ _ (by omega)] at this
  · have : (oCLOEXEC ||| oNONBLOCK) &&& 3#32 = 0#32 := by decide
    rw [BitVec.and_or_distrib_right, BitVec.and_assoc, this]; simp
  · have : (oCLOEXEC ||| oNONBLOCK) &&& 3#32 = 0#32 := by decide
    rw [BitVec.and_or_distrib_right, BitVec.and_assoc, this]; simp
  · simp only
    rw [setFd_at (cg := cg.withSlot r (some (.pipe s.npipe (0#32 ||| (fl &&& (oCLOEXEC ||| oNONBLOCK))))))]
    · rw [setFd_at (s := { s with pipes := upd s.pipes s.npipe (some (Pipe.new Pipe.pipeCapacity)), npipe := s.npipe + 1 }) (cg := cg) hc]; simp [upd_upd]
    · rw [setFd_at (s := { s with pipes := upd s.pipes s.npipe (some (Pipe.new Pipe.pipeCapacity)), npipe := s.npipe + 1 }) (cg := cg) hc]; simp

/-- C08, violated: `dup(0)` returns 0, a number that is not free, and makes no descriptor. -/
theorem dup_zero_violated : ∃ cg, init.cages 0 = some cg ∧ ¬ Lowest cg.fds 0 0 ∧
    (step init 0 (.dup 0)).2.ret = .ok 0 ∧ (step init 0 (.dup 0)).1 = init :=
  ⟨{ fds := initTable, cwd := [slash], parent := 0 }, rfl, fun h => by simp [Lowest, initTable] at h, rfl, rfl⟩

/-! ## C09 -/

theorem sameObject_setFlags {d : Desc} {f : BitVec 32} (h : f &&& 3#32 = d.flags &&& 3#32) :
    SameObject d (d.setFlags f) := by
  cases d <;> simp only [SameObject, Desc.setFlags, true_and]
  · exact h.symm
  · exact h.symm

theorem cloexec_off (f : BitVec 32) : (f &&& ~~~oCLOEXEC) &&& 3#32 = f &&& 3#32 := flags_cloexec_off f

/-- A descriptor that is open keeps its object alive, in every reachable state: whatever the
history of copies and closes, the last open copy still has the object. -/
theorem open_alive {s : State} (h : Reach s) {c fd : Nat} {cg : Cage} {d : Desc}
    (hc : s.cages c = some cg) (hd : cg.fds fd = some d) : Alive s d := h.inv.alive hc hd

/-- C09, the part that holds.  `dup` of an open descriptor other than 0 gives a
descriptor for the same object with close-on-exec off; the old one does not change. -/
theorem dup_same_partial {s : State} {c : Nat} {cg : Cage} {fd : Int} {v : Int} {d : Desc}
    (hc : s.cages c = some cg) (h0 : 0 < fd) (hd : cg.fds fd.toNat = some d)
    (h : (step s c (.dup fd)).2.ret = .ok v) :
    ∃ (n : Nat) (d' : Desc), v = n ∧ (n : Int) ≠ fd ∧ SameObject d d' ∧ ¬ Cloexec d' ∧
      (step s c (.dup fd)).1.cages = upd s.cages c (some (cg.withSlot n (some d'))) := by
  simp only [step, hc, dup, if_neg (by omega : ¬ fd = 0)] at h ⊢
  split at h
  · cases h
  · cases h
  rename_i d0 hg
  have e := (getFd_some hg).1
  rw [hd] at e
  cases e
  obtain ⟨n, e1, e2, -, e4⟩ := dupFrom_ok hc h
  obtain ⟨-, -, n3, -⟩ := nextFd_some e2
  refine ⟨n, _, e1, ?_, sameObject_setFlags (cloexec_off _), ?_, e4⟩
  · rintro rfl
    rw [Int.toNat_natCast, n3] at hd; cases hd
  · simp only [Cloexec]
    cases d <;> simp only [Desc.setFlags, Desc.flags] <;> (
      rw [BitVec.and_assoc]
      have : ~~~oCLOEXEC &&& 0o2000000#32 = 0#32 := by decide
      rw [this]; simp)

/-- C09, the part that holds.  `dup2(old, new)` with `old` open, not an epoll descriptor, and
`new ≠ old` in range: returns `new`, which now designates the object of `old`; nothing else in any table
changes. -/
theorem dup2_same_partial {s : State} (hr : Reach s) {c : Nat} {cg : Cage} {old new : Nat} {d : Desc}
    (hc : s.cages c = some cg) (ho : old < 1024) (hn : new < 1024) (hne : new ≠ old)
    (hd : cg.fds old = some d) (he : d.isEpoll = false) :
    (step s c (.dup2 old new)).2.ret = .ok new ∧
    ∃ d', SameObject d d' ∧ ¬ Cloexec d' ∧
      (step s c (.dup2 old new)).1.cages = upd s.cages c (some (cg.withSlot new (some d'))) := by
  have hnp := (hr.inv.dup2 hc old new (by
    intro f hf
    rw [getFd_nat ho, hd] at hf
    cases hf; cases he)).2
  have hb1 : ¬ ((new : Int) ≥ maxFd ∨ (new : Int) < 0) := by simp only [maxFd]; omega
  have hb2 : ¬ ((new : Int) = old) := by omega
  simp only [step, hc]
  simp only [dup2, if_neg hb1, if_neg hb2, getFd_nat ho, hd, he, Int.toNat_natCast, Bool.false_eq_true,
    if_false] at hnp ⊢
  have key : ∀ s1 : State, s1.cages = s.cages → (s1.putCopy c d new).2.ret ≠ .panic →
      (s1.putCopy c d new).2.ret = .ok new ∧ ∃ d', SameObject d d' ∧ ¬ Cloexec d' ∧
        (s1.putCopy c d new).1.cages = upd s.cages c (some (cg.withSlot new (some d'))) := by
    intro s1 hsame hnp
    simp only [State.putCopy] at hnp ⊢
    cases hb : s1.bump d with
    | none => rw [hb] at hnp; exact absurd rfl hnp
    | some s2 =>
      refine ⟨rfl, _, sameObject_setFlags (cloexec_off _), ?_, ?_⟩
      · simp only [Cloexec]
        cases d <;> simp only [Desc.setFlags, Desc.flags] <;> (
          rw [BitVec.and_assoc]
          have : ~~~oCLOEXEC &&& 0o2000000#32 = 0#32 := by decide
          rw [this]; simp)
      · simp only
        rw [setFd_at (cg := cg) (by rw [(bump_same hb).cages, hsame, hc]), (bump_same hb).cages, hsame]
  cases hx : cg.fds new with
  | none =>
    simp only [hx, reduceCtorEq, if_false] at hnp ⊢
    exact key s rfl hnp
  | some dn =>
    simp only [hx] at hnp ⊢
    by_cases hp : (s.drop dn).2 = .panic
    · rw [if_pos hp] at hnp; exact absurd rfl hnp
    · rw [if_neg hp] at hnp ⊢
      exact key _ (drop_same s dn).cages hnp

/-- C09.  `dup` and `dup2` of a number that is not open fail with EBADF and change nothing
(for `dup2`: if `new` is another number). -/
theorem dup_unopened {s : State} {c : Nat} {cg : Cage} {fd : Int} (hc : s.cages c = some cg)
    (h0 : fd ≠ 0) (hd : fd < 0 ∨ 1024 ≤ fd ∨ cg.fds fd.toNat = none) :
    step s c (.dup fd) = (s, { ret := .err .EBADF }) ∧
    ∀ new, new ≠ fd → step s c (.dup2 fd new) = (s, { ret := .err .EBADF }) := by
  have hg : getFd cg.fds fd = none ∨ getFd cg.fds fd = some none := by
    have hm : (maxFd : Int) = 1024 := rfl
    unfold getFd
    by_cases hx : fd < 0 ∨ fd ≥ maxFd
    · left; rw [if_pos hx]
    · right; rw [if_neg hx]; rcases hd with h | h | h <;> first | omega | rw [h]
  constructor
  · rcases hg with h | h <;> simp only [step, hc, dup, if_neg h0, h, Out.r]
  · intro new hn
    simp only [step, hc, dup2, if_neg hn]
    split
    · rfl
    · rcases hg with h | h <;> simp only [h, Out.r]

/-! ## C10 -/

/-- C10.  Closing an open descriptor succeeds and frees exactly that number. -/
theorem close_open {s : State} (hr : Reach s) {c : Nat} {cg : Cage} {fd : Nat} {d : Desc}
    (hc : s.cages c = some cg) (hf : fd < 1024) (hd : cg.fds fd = some d) :
    (step s c (.close fd)).2.ret = .ok 0 ∧
    (step s c (.close fd)).1.cages = upd s.cages c (some (cg.withSlot fd none)) := by
  obtain ⟨s', e1, -, e3, -⟩ := hr.inv.closeSlot hc hd
  simp only [step, hc, close, getFd_nat hf, hd, Int.toNat_natCast, e1]
  exact ⟨rfl, e3⟩

/-- C10.  Closing a number that is not open fails with EBADF and changes nothing. -/
theorem close_unopened {s : State} {c : Nat} {cg : Cage} {fd : Nat}
    (hc : s.cages c = some cg) (hf : fd < 1024) (hd : cg.fds fd = none) :
    step s c (.close fd) = (s, { ret := .err .EBADF }) := by
  simp only [step, hc, close, getFd_nat hf, hd, State.closeSlot, Out.r]

/-- C10.  A second close of the same number fails with EBADF and changes nothing. -/
theorem close_twice {s : State} (hr : Reach s) {c : Nat} {cg : Cage} {fd : Nat} {d : Desc}
    (hc : s.cages c = some cg) (hf : fd < 1024) (hd : cg.fds fd = some d) :
    step (step s c (.close fd)).1 c (.close fd) = ((step s c (.close fd)).1, { ret := .err .EBADF }) := by
  have h := (close_open hr hc hf hd).2
  exact close_unopened (cg := cg.withSlot fd none) (by rw [h]; simp) hf (by simp [Cage.withSlot])

/-- C10, violated: a number outside the table ends the process instead of giving EBADF. -/
theorem close_range_violated : (step init 0 (.close 1024)).2.ret = .panic ∧
    (step init 0 (.close (-1))).2.ret = .panic := ⟨rfl, rfl⟩

/-! ## C11 -/

/-- C11.  `exec` in a reachable state, for any id: the new
program has exactly the caller's descriptors that are not close-on-exec, unchanged and under the
same numbers, and the caller's working directory and parent.  The caller is gone unless it is the
same cage; no other cage changes. -/
theorem exec_keeps {s : State} (hr : Reach s) {c ch : Nat} {cg : Cage} (hc : s.cages c = some cg)
    (hlt : ch < 1024) :
    (step s c (.exec ch)).2.ret = .ok 0 ∧
    ∃ cg', (step s c (.exec ch)).1.cages ch = some cg' ∧
      (∀ fd d, cg'.fds fd = some d ↔ cg.fds fd = some d ∧ ¬ Cloexec d) ∧
      cg'.cwd = cg.cwd ∧ cg'.parent = cg.parent ∧
      (c ≠ ch → (step s c (.exec ch)).1.cages c = none) ∧
      ∀ k, k ≠ c → k ≠ ch → (step s c (.exec ch)).1.cages k = s.cages k := by
  obtain ⟨s', e1, -, -, e4⟩ := hr.inv.closeWhere hc (fun d => d.flags &&& oCLOEXEC != 0) maxFd (Nat.le_refl maxFd)
  have hc' : s'.cages c = some { cg with fds := closed (fun d => d.flags &&& oCLOEXEC != 0) maxFd cg.fds } := by
    rw [e4]; simp
  have heq : step s c (.exec ch) = ((s'.setCage c none).setCage ch
      (some { cg with fds := closed (fun d => d.flags &&& oCLOEXEC != 0) maxFd cg.fds }), .r (.ok 0)) := by
    simp only [step, hc]
    unfold exec
    rw [if_neg (by simp only [maxCage]; omega), e1]
    simp only [hc']
  rw [heq]
  refine ⟨rfl, { cg with fds := closed (fun d => d.flags &&& oCLOEXEC != 0) maxFd cg.fds },
    by simp [State.setCage], ?_, rfl, rfl, ?_, ?_⟩
  · intro fd d
    simp only [closed]
    cases hfd : cg.fds fd with
    | none => simp
    | some d0 =>
      have hlt : fd < maxFd := ((hr.inv.cage c cg hc).2.1 fd d0 hfd).1
      simp only [hlt, true_and, Cloexec, bne_iff_ne, oCLOEXEC]
      split
      · rename_i h
        constructor
        · intro x; cases x
        · rintro ⟨x, y⟩; cases x; exact absurd h y
      · rename_i h
        constructor
        · intro x; cases x; exact ⟨rfl, h⟩
        · rintro ⟨x, -⟩; exact x
  · intro hne; simp [State.setCage, hne]
  · intro k h1 h2; simp [State.setCage, h1, h2, e4]

/-! ## C12 -/

/-- C12, the part that holds.  `fork` that returns has given the child the caller's descriptors, each
for the same object under the same number with the same position and flags, and its working directory;
the caller and every other cage are unchanged.  Numbers not open in the caller
are not open in the child, except that 0, 1 and 2 are the standard streams. -/
theorem fork_copies_partial {s : State} (hr : Reach s) {c ch : Nat} {cg : Cage} {v : Int}
    (hc : s.cages c = some cg) (hfree : s.cages ch = none) (h : (step s c (.fork ch)).2.ret = .ok v) :
    v = 0 ∧ ∃ cg', (step s c (.fork ch)).1.cages ch = some cg' ∧
      (∀ fd d, cg.fds fd = some d → cg'.fds fd = some d) ∧
      (∀ fd, cg.fds fd = none → cg'.fds fd = initTable fd) ∧
      cg'.cwd = cg.cwd ∧ cg'.parent = c ∧
      ∀ k, k ≠ ch → (step s c (.fork ch)).1.cages k = s.cages k := by
  have hne : ch ≠ c := by rintro rfl; rw [hc] at hfree; cases hfree
  simp only [step, hc, fork] at h ⊢
  split at h
  · cases h
  rename_i hlt
  rw [if_neg hlt]
  have h1 := hr.inv.addCage (by omega) hfree (hr.inv.cage c cg hc).2.2 c
  obtain ⟨s', e1, -, -, e4⟩ := h1.forkCopy (cg := cg) (w := cg.cwd) (par := c)
    (by simp [State.setCage, Ne.symm hne, hc]) hne (by simp [State.setCage]) maxFd (Nat.le_refl maxFd)
  rw [e1] at h ⊢
  simp only at h ⊢
  have main : ∀ fs : Fs, ∃ cg', ({ s' with fs := fs } : State).cages ch = some cg' ∧
      (∀ fd d, cg.fds fd = some d → cg'.fds fd = some d) ∧
      (∀ fd, cg.fds fd = none → cg'.fds fd = initTable fd) ∧
      cg'.cwd = cg.cwd ∧ cg'.parent = c ∧
      ∀ k, k ≠ ch → ({ s' with fs := fs } : State).cages k = s.cages k := by
    intro fs
    refine ⟨{ fds := forked maxFd cg.fds, cwd := cg.cwd, parent := c }, by simp [e4], ?_, ?_, rfl, rfl, ?_⟩
    · intro fd d hd
      have := ((hr.inv.cage c cg hc).2.1 fd d hd).1
      simp [forked, this, hd]
    · intro fd hd
      simp [forked, hd]
    · intro k hk; simp [e4, State.setCage, hk]
  split at h
  · split at h
    · cases h
    · split at h
      · rename_i i par hx _ nd hi hd
        cases h
        rw [if_pos hd]
        exact ⟨rfl, main _⟩
      · cases h
  · cases h

/-! ## C50 -/

theorem drop_cages (s : State) (d : Desc) : (s.drop d).1.cages = s.cages := (drop_same s d).cages

theorem setFd_frame (s : State) {c k fd : Nat} (o : Option Desc) (h : k ≠ c) :
    (s.setFd c fd o).cages k = s.cages k := by
  simp only [State.setFd, State.setCage]
  split <;> simp [h]

theorem closeSlot_frame (s : State) {c k fd : Nat} (o : Option Desc) (h : k ≠ c) :
    (s.closeSlot c fd o).1.cages k = s.cages k := by
  simp only [State.closeSlot]
  split
  · rfl
  · rename_i d
    have hd := drop_cages s d
    split
    · rename_i s' v e
      rw [e] at hd
      rw [setFd_frame _ _ h]; exact congrFun hd k
    · rename_i s' r e
      rw [e] at hd; exact congrFun hd k

theorem closeWhere_frame (sel : Desc → Bool) {c k : Nat} (h : k ≠ c) : ∀ n s,
    (closeWhere sel c n s).1.cages k = s.cages k := by
  intro n
  induction n with
  | zero => intro s; rfl
  | succ n ih =>
    intro s
    have := ih s
    simp only [closeWhere]
    split
    · rename_i e; rw [e] at this; exact this
    · rename_i e
      rw [e] at this
      split
      · exact this
      · split
        · exact this
        · split
          · rw [closeSlot_frame _ _ h]; exact this
          · exact this

theorem putCopy_frame (s : State) {c k : Nat} (d : Desc) (n : Nat) (h : k ≠ c) :
    (s.putCopy c d n).1.cages k = s.cages k := by
  simp only [State.putCopy]
  split
  · rfl
  · rename_i s1 e
    rw [setFd_frame _ _ h, (bump_same e).cages]

theorem dupFrom_frame (s : State) {c k : Nat} (cg : Cage) (d : Desc) (n : Nat) (h : k ≠ c) :
    (dupFrom s c cg d n).1.cages k = s.cages k := by
  simp only [dupFrom]
  split
  · rfl
  · split
    · rfl
    · exact putCopy_frame _ _ _ h

theorem forkCopy_frame (t : Table) {ch k : Nat} (h : k ≠ ch) : ∀ n s s', forkCopy t ch n s = some s' →
    s'.cages k = s.cages k := by
  intro n
  induction n with
  | zero => intro s s' e; cases e; rfl
  | succ n ih =>
    intro s s' e
    simp only [forkCopy] at e
    split at e
    · cases e
    · rename_i s1 e1
      have := ih s s1 e1
      split at e
      · cases e; exact this
      · split at e
        · cases e
        · rename_i s2 e2
          cases e
          rw [setFd_frame _ _ h, (bump_same e2).cages, this]

/-- C50.  A call of one cage never changes the descriptor table, working directory or parent of
another, in any state; only `fork` and `exec` create another cage, the one named by the
caller. -/
theorem cage_isolation {s : State} {c k : Nat} {op : Op} (hk : k ≠ c) (hf : op ≠ .fork k) (he : op ≠ .exec k) :
    (step s c op).1.cages k = s.cages k := by
  cases hc : s.cages c with
  | none => simp only [step, hc]
  | some cg =>
    cases op <;> simp only [step, hc]
    case fork ch =>
      have hch : k ≠ ch := fun e => hf (by rw [e])
      unfold fork
      split
      · rfl
      · split
        · rfl
        · rename_i s1 e1
          have := forkCopy_frame _ hch _ _ _ e1
          simp only [State.setCage, upd_ne _ _ hch] at this
          (repeat' split) <;> first | rfl | exact this
    case exec ch =>
      have hch : k ≠ ch := fun e => he (by rw [e])
      have := closeWhere_frame (fun d => d.flags &&& oCLOEXEC != 0) hk maxFd s
      unfold exec
      split
      · rfl
      · split
        · rename_i e; rw [e] at this; exact this
        · rename_i e
          rw [e] at this
          split
          · exact this
          · simp only [State.setCage, upd_ne _ _ hch, upd_ne _ _ hk]; exact this
    case exit st =>
      have := closeWhere_frame (fun _ => true) hk maxFd s
      unfold exit
      split
      · rename_i e; rw [e] at this; exact this
      · rename_i e
        rw [e] at this
        simp only [State.setCage, upd_ne _ _ hk]; exact this
    case dup2 o n =>
      unfold dup2
      split
      · rfl
      split
      · rfl
      split
      · rfl
      · rfl
      · have hz : ∀ dn, (s.drop dn).1.cages k = s.cages k := fun dn => congrFun (drop_cages s dn) k
        cases cg.fds n.toNat with
        | none =>
          simp only [reduceCtorEq, if_false]
          split
          · rfl
          · exact putCopy_frame _ _ _ hk
        | some dn =>
          simp only
          split
          · exact hz dn
          · split
            · exact hz dn
            · rw [putCopy_frame _ _ _ hk]; exact hz dn
    all_goals
      (try simp only [nonEmpty, State.onFs, fchmod, ftruncate, openSys, chdir, fchdir, read, pread, write,
        pwrite, writev, lseek, getdents, dup, fcntl, pipe2, putNew, close])
    all_goals
      (repeat' split) <;> try
        simp only [setFd_frame _ _ hk, closeSlot_frame _ _ hk, dupFrom_frame _ _ _ _ hk, State.setCage,
          upd_ne _ _ hk]

theorem bump_kind {s s' : State} {d : Desc} (h : s.bump d = some s') {i : Nat} {nd : Inode}
    (hi : s.fs.inodes i = some nd) : ∃ nd', s'.fs.inodes i = some nd' ∧ nd'.kind = nd.kind := by
  cases d <;> simp only [State.bump] at h
  case file j pos f =>
    simp only [Fs.incRef] at h
    cases hj : s.fs.inodes j with
    | none => rw [hj] at h; cases h
    | some ndj =>
      simp only [hj] at h
      repeat' split at h
      all_goals first | cases h | skip
      all_goals
        simp only [Fs.set, upd_apply]
        split
        · rename_i e; subst e; rw [hi] at hj; cases hj; exact ⟨_, rfl, rfl⟩
        · exact ⟨nd, hi, rfl⟩
  case pipe id f =>
    repeat' split at h
    all_goals cases h
    exact ⟨nd, hi, rfl⟩
  all_goals cases h; exact ⟨nd, hi, rfl⟩

theorem setFd_fs (s : State) (c fd : Nat) (o : Option Desc) : (s.setFd c fd o).fs = s.fs := by
  simp only [State.setFd, State.setCage]; split <;> rfl

theorem forkCopy_kind (t : Table) {ch i : Nat} : ∀ n s s', forkCopy t ch n s = some s' →
    ∀ nd, s.fs.inodes i = some nd → ∃ nd', s'.fs.inodes i = some nd' ∧ nd'.kind = nd.kind := by
  intro n
  induction n with
  | zero => intro s s' e nd hi; cases e; exact ⟨nd, hi, rfl⟩
  | succ n ih =>
    intro s s' e nd hi
    simp only [forkCopy] at e
    split at e
    · cases e
    · rename_i s1 e1
      obtain ⟨nd1, h1, k1⟩ := ih s s1 e1 nd hi
      split at e
      · cases e; exact ⟨nd1, h1, k1⟩
      · split at e
        · cases e
        · rename_i s2 e2
          cases e
          obtain ⟨nd2, h2, k2⟩ := bump_kind e2 h1
          exact ⟨nd2, by rw [setFd_fs]; exact h2, k2.trans k1⟩

theorem normpath_self {w w' : Str} (h : CwdOk w) : normpath w' w = w := by
  obtain ⟨ns, hg, rfl⟩ := h
  have h4 : normpath (render []) (render ns) = render ns := by
    rw [normpath_spec [] (by simp), isRelative_render, segs_render ns hg]; simp
  rw [normpath_absolute w' (render []) _ (isRelative_render ns), h4]

/-- C12.  `fork` with a free id succeeds whenever the working directory still exists. -/
theorem fork_succeeds {s : State} (hr : Reach s) {c ch : Nat} {cg : Cage} (hc : s.cages c = some cg)
    (hfree : s.cages ch = none) (hlt : ch < 1024)
    (hcwd : (step s c (.chdir cg.cwd)).2.ret = .ok 0) : (step s c (.fork ch)).2.ret = .ok 0 := by
  have hne : ch ≠ c := by rintro rfl; rw [hc] at hfree; cases hfree
  have hok := (hr.inv.cage c cg hc).2.2
  have hself : cg.path cg.cwd = names cg.cwd := by rw [Cage.path, normpath_self hok]
  simp only [step, hc, chdir, hself] at hcwd
  simp only [step, hc, fork, if_neg (by simp only [maxCage]; omega : ¬ ch ≥ maxCage)]
  have h1 := hr.inv.addCage hlt hfree hok c
  obtain ⟨s', e1, -, -, e4⟩ := h1.forkCopy (cg := cg) (w := cg.cwd) (par := c)
    (by simp [State.setCage, Ne.symm hne, hc]) hne (by simp [State.setCage]) maxFd (Nat.le_refl maxFd)
  rw [e1]
  simp only
  cases hw : s.fs.walk (names cg.cwd) with
  | none => rw [hw] at hcwd; cases hcwd
  | some r =>
    obtain ⟨i, par⟩ := r
    rw [hw] at hcwd
    cases i with
    | none => cases hcwd
    | some i =>
      simp only at hcwd ⊢
      cases hi : s.fs.inodes i with
      | none => rw [hi] at hcwd; cases hcwd
      | some nd =>
        rw [hi] at hcwd
        simp only at hcwd
        split at hcwd
        · rename_i hdir
          obtain ⟨nd', h2, h3⟩ := forkCopy_kind _ _ _ _ e1 nd hi
          have : nd'.isDir = true := by simp only [Inode.isDir, h3] at hdir ⊢; exact hdir
          simp only [h2, this, if_true]
          rfl
        · cases hcwd

/-! ## Concrete states -/

/-- A run is a sequence of steps. -/
theorem run_append (s : State) (a b : List (Nat × Op)) : run s (a ++ b) = run (run s a) b := by
  induction a generalizing s with
  | nil => rfl
  | cons x a ih => exact ih _

/-- `/a`. -/
def pA : Str := [47, 97]

/-- A history: create `/a`, write to it, make a pipe, write to it, mark one end close-on-exec. -/
def demoOps : List (Nat × Op) :=
  [(0, .openP pA 0o102#32 0o666#32), (0, .write 3 [1, 2, 3]), (0, .pipe2 0#32), (0, .write 5 [7]),
   (0, .fcntl 4 2 0o2000000#32)]

def demo : State := run init demoOps

theorem demo_reach : Reach demo := Reach.init.run demoOps (by decide +kernel)

/-- The slot `fd` of cage `c`. -/
def slot (s : State) (c fd : Nat) : Option Desc := match s.cages c with | none => none | some cg => cg.fds fd

theorem slot_eq {s : State} {c fd : Nat} {cg : Cage} (h : s.cages c = some cg) : slot s c fd = cg.fds fd := by
  simp only [slot, h]

theorem slot_none {s : State} {c fd : Nat} (h : s.cages c = none) : slot s c fd = none := by
  simp only [slot, h]

theorem init_cages (c : Nat) : init.cages c =
    if c = 0 then some { fds := initTable, cwd := [slash], parent := 0 }
    else if c = 1 then some { fds := initTable, cwd := [slash], parent := 1 }
    else none := rfl

theorem slot_upd {s r : State} {c0 c fd n : Nat} {cg : Cage} {o : Option Desc}
    (h : r.cages = upd s.cages c0 (some (cg.withSlot n o))) :
    slot r c fd = if c = c0 then (if fd = n then o else cg.fds fd) else slot s c fd := by
  simp only [slot, h, upd_apply]
  by_cases e : c = c0
  · simp only [if_pos e, Cage.withSlot, upd_apply]
  · simp only [if_neg e]

/-- The pipe counts of `demo` are 1 and 1, and so are the numbers of descriptors (C05). -/
example : (demo.pipes 0).map (fun p => (p.rref, p.wref)) = some (1, 1) ∧
    countSlots demo.cages (isEndOf 0 0#32) = 1 ∧ countSlots demo.cages (isEndOf 0 1#32) = 1 := by
  decide +kernel

/-- After a fork both counts are 2; after the parent closed its write end, 2 and 1; after both did, a
reader gets the byte that is left and then end of file (C05, C12, C10). -/
example : let s := run demo [(0, .fork 2)]
    let s' := run s [(0, .close 5)]
    let s'' := run s' [(2, .close 5)]
    Reach s ∧ Reach s' ∧ Reach s'' ∧
    (s.pipes 0).map (fun p => (p.rref, p.wref)) = some (2, 2) ∧
    (s'.pipes 0).map (fun p => (p.rref, p.wref)) = some (2, 1) ∧
    (step s'' 2 (.read 4 9)).2 = { ret := .ok 1, data := [7] } ∧
    (step (step s'' 2 (.read 4 9)).1 2 (.read 4 9)).2.ret = .ok 0 ∧
    (step (step s' 2 (.read 4 9)).1 2 (.read 4 9)).2.ret = .blocked := by
  refine ⟨?_, ?_, ?_, ?_⟩
  · exact demo_reach.run [(0, .fork 2)] (by decide +kernel)
  · exact (demo_reach.run [(0, .fork 2)] (by decide +kernel)).run [(0, .close 5)] (by decide +kernel)
  · exact ((demo_reach.run [(0, .fork 2)] (by decide +kernel)).run [(0, .close 5)] (by decide +kernel)).run
      [(2, .close 5)] (by decide +kernel)
  · decide +kernel

/-- Creating calls in `demo` after 4 was closed: 4 is the lowest free number, 6 the next (C08). -/
example : let s := run demo [(0, .close 4)]
    (step s 0 (.dup 3)).2.ret = .ok 4 ∧ (step s 0 (.openP pA 0#32 0#32)).2.ret = .ok 4 ∧
    (step s 0 (.socket false false)).2.ret = .ok 4 ∧ (step s 0 (.fcntl 3 0 5#32)).2.ret = .ok 6 ∧
    (step s 0 (.pipe2 0#32)).2.pair = (4, 6) ∧ (step s 0 (.epollCreate 1)).2.ret = .ok 4 := by decide +kernel

/-- A copy stays usable when the original is closed (C09). -/
example : let s := run demo [(0, .dup 3), (0, .close 3)]
    (step s 0 (.pread 6 2 1)).2 = { ret := .ok 2, data := [2, 3] } := by decide +kernel

/-- Exec keeps 3 and 5 and closes 4, which is close-on-exec (C11). -/
example : let s := (step demo 0 (.exec 7)).1
    (step demo 0 (.exec 7)).2.ret = .ok 0 ∧ slot s 7 3 = slot demo 0 3 ∧ slot s 7 4 = none ∧
    slot s 7 5 = slot demo 0 5 ∧ slot demo 0 4 ≠ none ∧ (s.pipes 0).map (fun p => (p.rref, p.wref)) = some (0, 1) := by
  decide +kernel

/-! ## Violations -/

/-- C09, violated: a copy has its own position.  After `lseek(3, 0, SEEK_SET)` the copy 6 is
still at 3. -/
theorem dup_offset_violated : let s := run demo [(0, .dup 3), (0, .lseek 3 0 0)]
    (step s 0 (.lseek 3 0 1)).2.ret = .ok 0 ∧ (step s 0 (.lseek 6 0 1)).2.ret = .ok 3 := by decide +kernel

/-- C12, violated: the same for `fork`. -/
theorem fork_offset_violated : let s := run demo [(0, .fork 2), (2, .lseek 3 0 0)]
    (step s 0 (.lseek 3 0 1)).2.ret = .ok 3 ∧ (step s 2 (.lseek 3 0 1)).2.ret = .ok 0 := by decide +kernel

/-- C09, violated: `dup2(9, 9)` succeeds although 9 is not open. -/
theorem dup2_self_violated : slot demo 0 9 = none ∧ (step demo 0 (.dup2 9 9)).2.ret = .ok 9 := by decide +kernel

/-- C09, violated: `dup2(6, 3)` with an epoll descriptor 6 fails, but it has released what 3
designates and left 3 open: once the file is unlinked, a read of 3 aborts the process. -/
theorem dup2_epoll_violated : let s := run demo [(0, .epollCreate 1)]
    let s' := (step s 0 (.dup2 6 3)).1
    Reach s ∧ (step s 0 (.dup2 6 3)).2.ret = .err .EACCES ∧ slot s' 0 3 = slot s 0 3 ∧ slot s 0 3 ≠ none ∧
    (step (step s' 0 (.unlink pA)).1 0 (.read 3 1)).2.ret = .panic := by
  refine ⟨demo_reach.run [(0, .epollCreate 1)] (by decide +kernel), by decide +kernel⟩

/-- C12, violated: the child has standard input although its parent closed it. -/
theorem fork_streams_violated : let s := run demo [(0, .close 0), (0, .fork 2)]
    slot s 0 0 = none ∧ slot s 2 0 ≠ none := by decide +kernel

/-- C12, violated: `fork` aborts the process if the working directory was removed. -/
theorem fork_cwd_violated : let s := run init [(0, .mkdir pA 0o777#32), (0, .chdir pA), (1, .rmdir pA)]
    Reach s ∧ (step s 0 (.fork 2)).2.ret = .panic := by
  refine ⟨Reach.init.run [(0, .mkdir pA 0o777#32), (0, .chdir pA), (1, .rmdir pA)] (by decide +kernel), by decide +kernel⟩

/-! ### A full table and `pipe2` -/

/-- The state in which cage 0 has all numbers below `3 + k` open, by `k` calls of `dup(1)`. -/
def dups (k : Nat) : State := run init (List.replicate k (0, .dup 1))

theorem dups_succ (k : Nat) : dups (k + 1) = (step (dups k) 0 (.dup 1)).1 := by
  rw [dups, List.replicate_succ', run_append]; rfl

theorem nextFd_eq {t : Table} {n : Nat} (h1 : n < 1024) (h2 : t n = none) (h3 : ∀ j, j < n → t j ≠ none) :
    nextFd t 0 = some n := by
  cases e : nextFd t 0 with
  | none => exact absurd h2 (nextFd_none e n (by omega) h1)
  | some m =>
    obtain ⟨-, m2, m3, m4⟩ := nextFd_some e
    rcases Nat.lt_trichotomy m n with h | h | h
    · exact absurd m3 (h3 m h)
    · rw [h]
    · exact absurd h2 (m4 n (by omega) h)

theorem dups_table (k : Nat) (hk : k ≤ 1021) : Reach (dups k) ∧ ∃ cg, (dups k).cages 0 = some cg ∧
    (∀ j, j < 3 + k → ∃ n f, cg.fds j = some (.stream n f)) ∧ (∀ j, 3 + k ≤ j → cg.fds j = none) ∧
    (∀ c, c ≠ 0 → (dups k).cages c = init.cages c) ∧ (dups k).npipe = 0 := by
  induction k with
  | zero =>
    refine ⟨.init, { fds := initTable, cwd := [slash], parent := 0 }, rfl, ?_, ?_, fun _ _ => rfl, rfl⟩
    · intro j hj
      match j, hj with
      | 0, _ => exact ⟨_, _, rfl⟩
      | 1, _ => exact ⟨_, _, rfl⟩
      | 2, _ => exact ⟨_, _, rfl⟩
    · intro j hj
      match j, hj with
      | j + 3, _ => rfl
  | succ k ih =>
    obtain ⟨hr, cg, hc, h1, h2, h3, h4⟩ := ih (by omega)
    obtain ⟨n, f, hs⟩ := h1 1 (by omega)
    have hn : nextFd cg.fds 0 = some (3 + k) := nextFd_eq (by omega) (h2 _ (by omega)) (by
      intro j hj; obtain ⟨n, f, e⟩ := h1 j hj; simp [e])
    have he : step (dups k) 0 (.dup 1) = ((dups k).setFd 0 (3 + k) (some (.stream n (f &&& ~~~oCLOEXEC))),
        { ret := .ok ((3 + k : Nat) : Int) }) := by
      simp only [step, hc, dup, if_neg (by decide : ¬ (1 : Int) = 0), getFd_in (t := cg.fds) (by decide : (0 : Int) ≤ 1)
        (by decide), Int.toNat_one, hs, dupFrom, hn, Desc.isEpoll, Bool.false_eq_true, if_false, State.putCopy, State.bump,
        Desc.setFlags, Desc.flags, Out.r]
    have hcag := setFd_at (fd := 3 + k) (o := some (.stream n (f &&& ~~~oCLOEXEC))) hc
    rw [dups_succ]
    refine ⟨.step 0 (.dup 1) hr (by simp [Tame, hc]) (by rw [he]; simp), _, by rw [he, hcag]; simp; rfl, ?_, ?_, ?_, ?_⟩
    · intro j hj
      simp only [Cage.withSlot, upd_apply]
      split
      · exact ⟨_, _, rfl⟩
      · exact h1 j (by omega)
    · intro j hj
      simp only [Cage.withSlot, upd_apply]
      rw [if_neg (by omega)]
      exact h2 j (by omega)
    · intro c hne; rw [he, hcag]; simp [hne, h3 c hne]
    · rw [he]; simp only [State.setFd, hc, State.setCage]; exact h4

theorem pipe2_leak {s : State} {cg : Cage} {fd : Nat} (hc : s.cages 0 = some cg) (hn : nextFd cg.fds 0 = some fd)
    (hf : ∀ j, j < 1024 → j ≠ fd → cg.fds j ≠ none) :
    (step s 0 (.pipe2 0#32)).2.ret = .err .ENFILE ∧
    (step s 0 (.pipe2 0#32)).1.cages = upd s.cages 0 (some (cg.withSlot fd (some (.pipe s.npipe 0#32)))) ∧
    (step s 0 (.pipe2 0#32)).1.pipes = upd s.pipes s.npipe (some (Pipe.new Pipe.pipeCapacity)) := by
  have hn2 : nextFd (upd cg.fds fd (some (.pipe s.npipe (0#32 ||| (0#32 &&& (oCLOEXEC ||| oNONBLOCK)))))) 0 = none := by
    rw [nextFd_full]
    intro j _ hj
    simp only [upd_apply]
    split
    · simp
    · exact hf j hj ‹_›
  simp only [step, hc, pipe2, hn, hn2]
  refine ⟨rfl, ?_, ?_⟩
  · simp only [State.setFd, hc, State.setCage, Cage.withSlot, BitVec.zero_and, BitVec.or_zero]
  · simp only [State.setFd, hc, State.setCage]

/-- C05, violated: with exactly one free number `pipe2` fails but leaves a descriptor for the read
end and a count of one writer, although no descriptor is a write end. -/
theorem pipe2_leak_violated : ∃ s, Reach s ∧ (step s 0 (.pipe2 0#32)).2.ret = .err .ENFILE ∧
    slot s 0 1023 = none ∧ slot (step s 0 (.pipe2 0#32)).1 0 1023 = some (.pipe 0 0#32) ∧
    ((step s 0 (.pipe2 0#32)).1.pipes 0).map (fun p => p.wref) = some 1 ∧
    ∀ c fd, isEndOf 0 1#32 (slot (step s 0 (.pipe2 0#32)).1 c fd) = false := by
  obtain ⟨hr, cg, hc, h1, h2, h3, h4⟩ := dups_table 1020 (by omega)
  refine ⟨dups 1020, ?_⟩
  generalize dups 1020 = s at *
  have hn : nextFd cg.fds 0 = some 1023 := nextFd_eq (by omega) (h2 _ (by omega)) (by
    intro j hj; obtain ⟨n, f, e⟩ := h1 j (by omega); simp [e])
  obtain ⟨e1, e2, e3⟩ := pipe2_leak hc hn (fun j hj hne => by obtain ⟨n, f, e⟩ := h1 j (by omega); simp [e])
  rw [h4] at e2 e3
  generalize step s 0 (.pipe2 0#32) = r at *
  have a1 : slot s 0 1023 = none := (slot_eq hc).trans (h2 1023 (by omega))
  have a2 : slot r.1 0 1023 = some (.pipe 0 0#32) := by
    rw [slot_upd e2, if_pos rfl, if_pos rfl]
  have a3 : (r.1.pipes 0).map (fun p => p.wref) = some 1 := by rw [e3, upd_same]; rfl
  refine ⟨hr, e1, a1, a2, a3, ?_⟩
  intro c fd
  rw [slot_upd e2]
  by_cases e : c = 0
  · rw [if_pos e]
    by_cases e' : fd = 1023
    · rw [if_pos e']; rfl
    · rw [if_neg e']
      by_cases hlt : fd < 3 + 1020
      · obtain ⟨n, f, e⟩ := h1 fd hlt; rw [e]; rfl
      · rw [h2 fd (by omega)]; rfl
  · rw [if_neg e]
    have hi : init.cages c = if c = 1 then some { fds := initTable, cwd := [slash], parent := 1 } else none := by
      rw [init_cages, if_neg e]
    rw [← h3 c e] at hi
    by_cases e1 : c = 1
    · rw [if_pos e1] at hi
      rw [slot_eq hi]
      show isEndOf 0 1#32 (initTable fd) = false
      unfold initTable
      split <;> rfl
    · rw [if_neg e1] at hi
      rw [slot_none hi]; rfl

end Verif.Kernel
