import Verif.FsOps
import Verif.Kernel
import Verif.PathProps

/-!
# The invariant of the kernel model: reference counts, descriptor tables

`Inv s X`: every count in `s` is the number of descriptors in all tables plus those in the list `X`
of descriptors "in hand" (taken out of a table or not yet stored).
-/

namespace Verif.Kernel
open Verif.Path Verif.Fs
open Verif.Pipe (Pipe End)

set_option linter.unusedSimpArgs false

/-! ## Resources -/

/-- What a descriptor can hold a reference to. -/
inductive Res
  | ino (i : Nat)
  | pend (id : Nat) (e : End)
  deriving DecidableEq

/-- 1 if the descriptor holds the reference, else 0. -/
def weight (r : Res) (d : Desc) : Nat :=
  match r, d with
  | .ino i, .file j _ _ => if j = i then 1 else 0
  | .pend id e, .pipe id' f => if id' = id ∧ endOf f = some e then 1 else 0
  | _, _ => 0

/-- Weight of a slot. -/
def slotW (r : Res) : Option Desc → Nat
  | none => 0
  | some d => weight r d

/-- Weight of a table. -/
def tableW (r : Res) (t : Table) : Nat := sumTo (fun fd => slotW r (t fd)) maxFd

/-- Weight of a cage. -/
def cageW (r : Res) : Option Cage → Nat
  | none => 0
  | some cg => tableW r cg.fds

/-- Number of open descriptors, over all cages, that hold the reference. -/
def cagesW (r : Res) (cages : Nat → Option Cage) : Nat := sumTo (fun c => cageW r (cages c)) maxCage

/-- Weight of the descriptors in hand. -/
def handW (r : Res) : List Desc → Nat
  | [] => 0
  | d :: X => weight r d + handW r X

theorem tableW_upd (r : Res) (t : Table) {fd : Nat} (h : fd < maxFd) (o : Option Desc) :
    tableW r (upd t fd o) + slotW r (t fd) = tableW r t + slotW r o := by
  have := sumTo_upd (f := fun k => slotW r (upd t fd o k)) (g := fun k => slotW r (t k)) h
    (fun j hj => by simp [hj])
  simpa [tableW] using this

theorem cagesW_upd (r : Res) (cages : Nat → Option Cage) {c : Nat} (h : c < maxCage) (o : Option Cage) :
    cagesW r (upd cages c o) + cageW r (cages c) = cagesW r cages + cageW r o := by
  have := sumTo_upd (f := fun k => cageW r (upd cages c o k)) (g := fun k => cageW r (cages k)) h
    (fun j hj => by simp [hj])
  simpa [cagesW] using this

theorem weight_le_cages (r : Res) {cages : Nat → Option Cage} {c fd : Nat} {cg : Cage} {d : Desc}
    (hc : c < maxCage) (hf : fd < maxFd) (h1 : cages c = some cg) (h2 : cg.fds fd = some d) :
    weight r d ≤ cagesW r cages := by
  have a : weight r d ≤ tableW r cg.fds := by
    have := sumTo_le (f := fun k => slotW r (cg.fds k)) hf
    simpa [tableW, h2, slotW] using this
  have b : tableW r cg.fds ≤ cagesW r cages := by
    have := sumTo_le (f := fun k => cageW r (cages k)) hc
    simpa [cagesW, h1, cageW] using this
  omega

/-! ## The invariant -/

/-- A pipe descriptor designates an existing pipe and is one of its two ends. -/
def DescOk (npipe : Nat) : Desc → Prop
  | .pipe id f => id < npipe ∧ endOf f ≠ none
  | _ => True

/-- The working directory string is an absolute normalised path. -/
def CwdOk (w : Str) : Prop := ∃ ns, (∀ n ∈ ns, Good n) ∧ w = render ns

/-- A well-formed cage. -/
def CageOk (npipe : Nat) (cg : Cage) : Prop :=
  (∀ fd d, cg.fds fd = some d → fd < maxFd ∧ DescOk npipe d) ∧ CwdOk cg.cwd

/-- Number of references held by open descriptors. -/
def tot (s : State) (X : List Desc) (r : Res) : Nat := cagesW r s.cages + handW r X

structure Inv (s : State) (X : List Desc) : Prop where
  fs : FsInv s.fs (fun i => tot s X (.ino i))
  pipe : ∀ id p, s.pipes id = some p → p.rref = tot s X (.pend id .read) ∧ p.wref = tot s X (.pend id .write)
  pex : ∀ id, (s.pipes id).isSome ↔ id < s.npipe
  cage : ∀ c cg, s.cages c = some cg → c < maxCage ∧ CageOk s.npipe cg
  hand : ∀ d ∈ X, DescOk s.npipe d

/-- Only cages and hand change, and all counts stay. -/
theorem Inv.move {s s' : State} {X X' : List Desc} (h : Inv s X) (e1 : s'.fs = s.fs)
    (e2 : s'.pipes = s.pipes) (e3 : s'.npipe = s.npipe)
    (hw : ∀ r, tot s' X' r = tot s X r)
    (hc : ∀ c cg, s'.cages c = some cg → c < maxCage ∧ CageOk s.npipe cg)
    (hh : ∀ d ∈ X', DescOk s.npipe d) : Inv s' X' := by
  refine ⟨?_, ?_, ?_, ?_, ?_⟩
  · rw [e1]; simp only [hw]; exact h.fs
  · intro id p hp
    rw [e2] at hp
    simp only [hw]; exact h.pipe id p hp
  · rw [e2, e3]; exact h.pex
  · rw [e3]; exact hc
  · rw [e3]; exact hh

/-- Only the file system changes. -/
theorem Inv.onFs {s : State} {X : List Desc} (h : Inv s X) {fs' : Fs}
    (hf : FsInv fs' (fun i => tot s X (.ino i))) : Inv { s with fs := fs' } X :=
  ⟨hf, h.pipe, h.pex, h.cage, h.hand⟩

/-! ## Slots -/

theorem setFd_eq {s : State} {c fd : Nat} {cg : Cage} (hc : s.cages c = some cg) (o : Option Desc) :
    s.setFd c fd o = { s with cages := upd s.cages c (some { cg with fds := upd cg.fds fd o }) } := by
  simp only [State.setFd, hc, State.setCage]

theorem setFd_cagesW {s : State} {c fd : Nat} {cg : Cage} (hc : s.cages c = some cg) (hc' : c < maxCage)
    (hf : fd < maxFd) (o : Option Desc) (r : Res) :
    cagesW r (s.setFd c fd o).cages + slotW r (cg.fds fd) = cagesW r s.cages + slotW r o := by
  rw [setFd_eq hc]
  have h1 := cagesW_upd r s.cages hc' (some { cg with fds := upd cg.fds fd o })
  have h2 := tableW_upd r cg.fds hf o
  rw [hc] at h1
  simp only [cageW] at h1
  show cagesW r (upd s.cages c _) + _ = _
  omega

theorem Inv.setSlot {s : State} {X X' : List Desc} (h : Inv s X) {c fd : Nat} {cg : Cage}
    (hc : s.cages c = some cg) (hf : fd < maxFd) (o : Option Desc)
    (ho : ∀ d, o = some d → DescOk s.npipe d) (hX : ∀ d ∈ X', DescOk s.npipe d)
    (hw : ∀ r, slotW r o + handW r X' = slotW r (cg.fds fd) + handW r X) : Inv (s.setFd c fd o) X' := by
  have hco := h.cage c cg hc
  refine h.move (by rw [setFd_eq hc]) (by rw [setFd_eq hc]) (by rw [setFd_eq hc]) ?_ ?_ hX
  · intro r
    have h1 := setFd_cagesW hc hco.1 hf o r
    have h2 := hw r
    simp only [tot]; omega
  · intro c' cg' h'
    rw [setFd_eq hc] at h'
    simp only [upd_apply] at h'
    split at h'
    · rename_i e; subst e; cases h'
      refine ⟨hco.1, ?_, hco.2.2⟩
      intro k d hd
      simp only [upd_apply] at hd
      split at hd
      · rename_i e; subst e; exact ⟨hf, ho d hd⟩
      · exact hco.2.1 k d hd
    · exact h.cage c' cg' h'

/-- Store a descriptor from the hand in a slot that holds no reference. -/
theorem Inv.put {s : State} {d d' : Desc} {X : List Desc} (h : Inv s (d :: X)) {c fd : Nat} {cg : Cage}
    (hc : s.cages c = some cg) (hf : fd < maxFd) (hz : ∀ r, slotW r (cg.fds fd) = 0)
    (hd : ∀ r, weight r d' = weight r d) (hok : DescOk s.npipe d') : Inv (s.setFd c fd (some d')) X :=
  h.setSlot hc hf _ (fun _ e => by cases e; exact hok) (fun x hx => h.hand x (by simp [hx]))
    (fun r => by
      show weight r d' + handW r X = slotW r (cg.fds fd) + (weight r d + handW r X)
      rw [hz r, hd r]; omega)

/-- Take a descriptor out of its slot. -/
theorem Inv.take {s : State} {d : Desc} {X : List Desc} (h : Inv s X) {c fd : Nat} {cg : Cage}
    (hc : s.cages c = some cg) (hd : cg.fds fd = some d) : Inv (s.setFd c fd none) (d :: X) := by
  have hco := (h.cage c cg hc).2.1 fd d hd
  refine h.setSlot hc hco.1 none (by simp) ?_ (fun r => by simp [slotW, handW, hd])
  intro x hx
  rcases List.mem_cons.1 hx with rfl | hx
  · exact hco.2
  · exact h.hand x hx

/-- Change a descriptor in its slot without changing what it designates. -/
theorem Inv.swap {s : State} {d d' : Desc} {X : List Desc} (h : Inv s X) {c fd : Nat} {cg : Cage}
    (hc : s.cages c = some cg) (hd : cg.fds fd = some d) (he : ∀ r, weight r d' = weight r d)
    (hok : DescOk s.npipe d') : Inv (s.setFd c fd (some d')) X := by
  have hco := (h.cage c cg hc).2.1 fd d hd
  exact h.setSlot hc hco.1 _ (fun _ e => by cases e; exact hok) h.hand
    (fun r => by simp [slotW, hd, he r])

/-! ## References -/

/-- Parts of the state that taking and releasing references does not touch. -/
structure SameTab (s s' : State) : Prop where
  cages : s'.cages = s.cages
  npipe : s'.npipe = s.npipe

theorem SameTab.refl (s : State) : SameTab s s := ⟨rfl, rfl⟩
theorem SameTab.trans {a b c : State} (h : SameTab a b) (h' : SameTab b c) : SameTab a c :=
  ⟨h'.cages.trans h.cages, h'.npipe.trans h.npipe⟩

theorem bump_same {s s' : State} {d : Desc} (h : s.bump d = some s') : SameTab s s' := by
  cases d <;> simp only [State.bump] at h <;> (repeat' split at h) <;> cases h <;> exact ⟨rfl, rfl⟩

theorem drop_same (s : State) (d : Desc) : SameTab s (s.drop d).1 := by
  cases d <;> simp only [State.drop] <;> (repeat' split) <;> exact ⟨rfl, rfl⟩

theorem endOf_cases {f : BitVec 32} (h : endOf f ≠ none) : ∃ e, endOf f = some e := by
  cases he : endOf f with
  | none => exact absurd he h
  | some e => exact ⟨e, rfl⟩

theorem Inv.bump {s : State} {X : List Desc} (h : Inv s X) {d : Desc} (hd : DescOk s.npipe d)
    (hh : ∀ r, weight r d ≤ tot s X r) : ∃ s', s.bump d = some s' ∧ Inv s' (d :: X) := by
  have hhand : ∀ x ∈ d :: X, DescOk s.npipe x := by
    intro x hx
    rcases List.mem_cons.1 hx with rfl | hx
    · exact hd
    · exact h.hand x hx
  have plain : (∀ r, weight r d = 0) → Inv s (d :: X) := fun hz =>
    h.move rfl rfl rfl (fun r => by simp [tot, handW, hz r]) h.cage hhand
  cases d with
  | stream n f => exact ⟨s, rfl, plain (fun r => by cases r <;> rfl)⟩
  | epoll f => exact ⟨s, rfl, plain (fun r => by cases r <;> rfl)⟩
  | sock f => exact ⟨s, rfl, plain (fun r => by cases r <;> rfl)⟩
  | file i pos f =>
    have hpos : 0 < tot s X (.ino i) := by have := hh (.ino i); simp [weight] at this; omega
    obtain ⟨fs', hfs⟩ := h.fs.incRef_some hpos
    refine ⟨{ s with fs := fs' }, by simp only [State.bump, hfs], ?_, ?_, h.pex, h.cage, hhand⟩
    · have := h.fs.incRef hpos hfs
      refine cast (congrArg _ ?_) this
      funext j
      simp only [tot, handW, weight, upd_apply]
      by_cases e : j = i
      · subst e; simp; omega
      · simp [e, Ne.symm e]
    · intro id p hp
      have := h.pipe id p hp
      simpa only [tot, handW, weight, Nat.zero_add] using this
  | pipe id f =>
    obtain ⟨hid, hend⟩ := hd
    obtain ⟨e, he⟩ := endOf_cases hend
    obtain ⟨p, hp⟩ := Option.isSome_iff_exists.1 ((h.pex id).2 hid)
    refine ⟨{ s with pipes := upd s.pipes id (some (incrPipe p f)) }, by simp only [State.bump, hp],
      ?_, ?_, ?_, h.cage, hhand⟩
    · have := h.fs
      simpa only [tot, handW, weight, Nat.zero_add] using this
    · intro id' p' hp'
      simp only [upd_apply] at hp'
      split at hp'
      · rename_i eid; subst eid; cases hp'
        have := h.pipe id' p hp
        simp only [tot] at this
        simp only [tot, handW, weight, incrPipe, he, Option.some.injEq, true_and]
        cases e <;> simp only [Pipe.incr, reduceCtorEq, if_true, if_false] <;> omega
      · rename_i eid
        have := h.pipe id' p' hp'
        simp only [tot] at this
        simp only [tot, handW, weight, Ne.symm eid, false_and, if_false]
        omega
    · intro id'
      simp only [upd_apply]
      split
      · rename_i eid; subst eid; simp [hid]
      · exact h.pex id'

theorem Inv.drop {s : State} {X : List Desc} {d : Desc} (h : Inv s (d :: X)) :
    Inv (s.drop d).1 X ∧ (s.drop d).2 = .ok 0 := by
  have hhand : ∀ x ∈ X, DescOk s.npipe x := fun x hx => h.hand x (by simp [hx])
  have plain : (∀ r, weight r d = 0) → Inv s X := fun hz =>
    h.move rfl rfl rfl (fun r => by simp [tot, handW, hz r]) h.cage hhand
  have hd := h.hand d (by simp)
  cases d with
  | stream n f => exact ⟨plain (fun r => by cases r <;> rfl), rfl⟩
  | epoll f => exact ⟨plain (fun r => by cases r <;> rfl), rfl⟩
  | sock f => exact ⟨plain (fun r => by cases r <;> rfl), rfl⟩
  | file i pos f =>
    have hpos : 0 < tot s (.file i pos f :: X) (.ino i) := by simp [tot, handW, weight]; omega
    have := h.fs.closeIno hpos
    refine ⟨⟨?_, ?_, h.pex, h.cage, hhand⟩, this.2⟩
    · refine cast (congrArg _ ?_) this.1
      funext j
      have hcg : (s.drop (.file i pos f)).1.cages = s.cages := rfl
      simp only [hcg, tot, handW, weight, upd_apply]
      by_cases e : j = i
      · subst e; simp; omega
      · simp [e, Ne.symm e]
    · intro id p hp
      have := h.pipe id p hp
      simp only [tot, handW, weight, Nat.zero_add] at this
      exact this
  | pipe id f =>
    obtain ⟨hid, hend⟩ := hd
    obtain ⟨e, he⟩ := endOf_cases hend
    obtain ⟨p, hp⟩ := Option.isSome_iff_exists.1 ((h.pex id).2 hid)
    simp only [State.drop, hp]
    refine ⟨⟨?_, ?_, ?_, h.cage, hhand⟩, trivial⟩
    · have := h.fs
      simp only [tot, handW, weight, Nat.zero_add] at this
      exact this
    · intro id' p' hp'
      simp only [upd_apply] at hp'
      split at hp'
      · rename_i eid; subst eid; cases hp'
        have := h.pipe id' p hp
        simp only [tot, handW, weight, he, Option.some.injEq, true_and] at this
        simp only [tot, decrPipe, he]
        cases e <;> simp only [reduceCtorEq, if_true, if_false] at this <;> simp only [Pipe.decr] <;> omega
      · rename_i eid
        have := h.pipe id' p' hp'
        simp only [tot, handW, weight, Ne.symm eid, false_and, if_false] at this
        simp only [tot]
        omega
    · intro id'
      simp only [upd_apply]
      split
      · rename_i eid; subst eid; simp [hid]
      · exact h.pex id'

theorem drop_setFd (s : State) (c fd : Nat) (o : Option Desc) (d : Desc) :
    (s.setFd c fd o).drop d = ((s.drop d).1.setFd c fd o, (s.drop d).2) := by
  cases hc : s.cages c with
  | none =>
    have e1 : s.setFd c fd o = s := by simp only [State.setFd, hc]
    have e2 : (s.drop d).1.setFd c fd o = (s.drop d).1 := by
      simp only [State.setFd, (drop_same s d).cages, hc]
    rw [e1, e2]
  | some cg =>
    rw [setFd_eq hc, setFd_eq (cg := cg) (by rw [(drop_same s d).cages, hc])]
    cases d with
    | pipe id f => simp only [State.drop]; cases s.pipes id <;> rfl
    | _ => rfl

/-- Close a descriptor that is in its slot. -/
theorem Inv.closeSlot {s : State} {X : List Desc} (h : Inv s X) {c fd : Nat} {cg : Cage} {d : Desc}
    (hc : s.cages c = some cg) (hd : cg.fds fd = some d) :
    ∃ s', s.closeSlot c fd (some d) = (s', .ok 0) ∧ Inv s' X ∧
      s'.cages = upd s.cages c (some { cg with fds := upd cg.fds fd none }) ∧ s'.npipe = s.npipe := by
  have h1 := (h.take hc hd).drop
  rw [drop_setFd] at h1
  refine ⟨(s.drop d).1.setFd c fd none, ?_, h1.1, ?_, ?_⟩
  · simp only [State.closeSlot]
    have := h1.2
    generalize hr : s.drop d = r at *
    obtain ⟨s', r⟩ := r
    simp only at this; subst this; rfl
  · rw [setFd_eq (cg := cg) (by rw [(drop_same s d).cages, hc]), (drop_same s d).cages]
  · rw [setFd_eq (cg := cg) (by rw [(drop_same s d).cages, hc])]; exact (drop_same s d).npipe

theorem Inv.closeSlot_none (s : State) (c fd : Nat) : s.closeSlot c fd none = (s, .err .EBADF) := rfl

/-! ## Flags -/

theorem weight_setFlags {d : Desc} {f : BitVec 32} (h : f &&& oRDWRFLAGS = d.flags &&& oRDWRFLAGS) (r : Res) :
    weight r (d.setFlags f) = weight r d := by
  have : endOf f = endOf d.flags := by unfold endOf isRdonly isWronly; rw [h]
  cases d <;> cases r <;> simp only [Desc.setFlags, weight]
  simp only [this, Desc.flags]

theorem descOk_setFlags {n : Nat} {d : Desc} {f : BitVec 32}
    (h : f &&& oRDWRFLAGS = d.flags &&& oRDWRFLAGS) (hd : DescOk n d) : DescOk n (d.setFlags f) := by
  have : endOf f = endOf d.flags := by unfold endOf isRdonly isWronly; rw [h]
  cases d <;> simp only [Desc.setFlags, DescOk] at *
  simp only [this, Desc.flags]; exact hd

theorem flags_cloexec_off (f : BitVec 32) : (f &&& ~~~oCLOEXEC) &&& oRDWRFLAGS = f &&& oRDWRFLAGS := by
  rw [BitVec.and_assoc]; congr 1
theorem flags_cloexec_on (f : BitVec 32) : (f ||| oCLOEXEC) &&& oRDWRFLAGS = f &&& oRDWRFLAGS := by
  ext i hi
  simp only [oCLOEXEC, oRDWRFLAGS, BitVec.getElem_and, BitVec.getElem_or]
  have : i < 32 := hi
  by_cases h : i = 19
  · subst h; simp
  · have : (524288#32)[i] = false := by
      rw [BitVec.getElem_eq_testBit_toNat]
      show Nat.testBit (2^19) i = false
      rw [Nat.testBit_two_pow]; simp; omega
    simp [this]
theorem flags_setfl (f a : BitVec 32) :
    ((a &&& ~~~(oRDWRFLAGS ||| oCREAT ||| oEXCL ||| oNOCTTY ||| oTRUNC)) |||
      (f &&& (oRDWRFLAGS ||| oCREAT ||| oEXCL ||| oNOCTTY ||| oTRUNC))) &&& oRDWRFLAGS = f &&& oRDWRFLAGS := by
  rw [BitVec.and_or_distrib_right]
  rw [BitVec.and_assoc, BitVec.and_assoc]
  have h1 : ~~~(oRDWRFLAGS ||| oCREAT ||| oEXCL ||| oNOCTTY ||| oTRUNC) &&& oRDWRFLAGS = 0#32 := by decide
  have h2 : (oRDWRFLAGS ||| oCREAT ||| oEXCL ||| oNOCTTY ||| oTRUNC) &&& oRDWRFLAGS = oRDWRFLAGS := by decide
  rw [h1, h2]; simp

end Verif.Kernel
