import Verif.KernelInv

/-!
# Every call keeps the invariant
-/

namespace Verif.Kernel
open Verif.Path Verif.Fs
open Verif.Pipe (Pipe End)

set_option linter.unusedSimpArgs false

/-! ## Paths, descriptors -/

theorem render_inj {ns ms : List Name} (h : ∀ n ∈ ns, Good n) (h' : ∀ n ∈ ms, Good n)
    (e : render ns = render ms) : ns = ms := by
  have a := segs_render ns h []
  rw [e, segs_render ms h' []] at a
  simpa using a.symm

theorem names_of_comps {q : Str} {ns : List Name} (h : components q = .root :: ns.map .normal) :
    names q = ns := by
  rw [names, h]
  simp only [List.filterMap_cons, List.filterMap_map]
  clear h
  induction ns with
  | nil => rfl
  | cons n ns ih => simp only [List.filterMap_cons, Function.comp, List.cons.injEq, true_and]; exact ih

theorem names_render {ns : List Name} (h : ∀ n ∈ ns, Good n) : names (render ns) = ns := by
  obtain ⟨ns', h1, h2, h3⟩ := normpath_canonical [] (by simp) (render ns)
  have h4 : normpath (render []) (render ns) = render ns := by
    rw [normpath_spec [] (by simp), isRelative_render, segs_render ns h]; simp
  rw [h4] at h2 h3
  rw [names_of_comps h3]
  exact (render_inj h h1 h2).symm

theorem path_spec {cg : Cage} (h : CwdOk cg.cwd) (p : Str) :
    GoodPath (cg.path p) ∧ CwdOk (normpath cg.cwd p) := by
  obtain ⟨dir, hd, e⟩ := h
  obtain ⟨ns, h1, h2, h3⟩ := normpath_canonical dir hd p
  rw [← e] at h2 h3
  refine ⟨?_, ns, h1, h2⟩
  intro n hn
  rw [Cage.path, names_of_comps h3] at hn
  exact h1 n hn

theorem nextFdAux_spec (t : Table) (k start : Nat) :
    match nextFdAux t k start with
    | some fd => start ≤ fd ∧ fd < start + k ∧ t fd = none ∧ ∀ j, start ≤ j → j < fd → t j ≠ none
    | none => ∀ j, start ≤ j → j < start + k → t j ≠ none := by
  induction k generalizing start with
  | zero => simp only [nextFdAux]; intro j _ _; omega
  | succ k ih =>
    simp only [nextFdAux]
    by_cases h : (t start).isNone
    · simp only [h, if_true]
      exact ⟨by omega, by omega, by simpa using h, fun j _ _ => by omega⟩
    · have hne : t start ≠ none := by simpa using h
      simp only [h, if_false, Bool.false_eq_true]
      have := ih (start + 1)
      generalize nextFdAux t k (start + 1) = r at *
      cases r with
      | some fd =>
        simp only at this ⊢
        refine ⟨by omega, by omega, this.2.2.1, ?_⟩
        intro j h1 h2
        by_cases e : j = start
        · subst e; exact hne
        · exact this.2.2.2 j (by omega) h2
      | none =>
        simp only at this ⊢
        intro j h1 h2
        by_cases e : j = start
        · subst e; exact hne
        · exact this j (by omega) (by omega)

theorem nextFd_some {t : Table} {start fd : Nat} (h : nextFd t start = some fd) :
    start ≤ fd ∧ fd < maxFd ∧ t fd = none ∧ ∀ j, start ≤ j → j < fd → t j ≠ none := by
  have := nextFdAux_spec t (maxFd - start) start
  rw [nextFd] at h
  rw [h] at this
  simp only at this
  exact ⟨this.1, by omega, this.2.2⟩

theorem nextFd_none {t : Table} {start : Nat} (h : nextFd t start = none) :
    ∀ j, start ≤ j → j < maxFd → t j ≠ none := by
  have := nextFdAux_spec t (maxFd - start) start
  rw [nextFd] at h
  rw [h] at this
  simp only at this
  exact fun j h1 h2 => this j h1 (by omega)

theorem getFd_some {t : Table} {fd : Int} {o : Option Desc} (h : getFd t fd = some o) :
    t fd.toNat = o ∧ 0 ≤ fd ∧ fd.toNat < maxFd ∧ (fd.toNat : Int) = fd := by
  simp only [getFd] at h
  split at h
  · cases h
  · cases h
    refine ⟨rfl, by omega, by omega, by omega⟩

theorem Inv.plain {s : State} {X : List Desc} (h : Inv s X) {d : Desc} (hz : ∀ r, weight r d = 0)
    (hd : DescOk s.npipe d) : Inv s (d :: X) :=
  h.move rfl rfl rfl (fun r => by simp [tot, handW, hz r]) h.cage (by
    intro x hx
    rcases List.mem_cons.1 hx with rfl | hx
    · exact hd
    · exact h.hand x hx)

theorem Inv.held {s : State} {X : List Desc} (h : Inv s X) {c fd : Nat} {cg : Cage} {d : Desc}
    (hc : s.cages c = some cg) (hd : cg.fds fd = some d) (r : Res) : weight r d ≤ tot s X r := by
  have h1 := h.cage c cg hc
  have := weight_le_cages r h1.1 (h1.2.1 fd d hd).1 hc hd
  simp only [tot]; omega

theorem Inv.file_held {s : State} {X : List Desc} (h : Inv s X) {c fd : Nat} {cg : Cage} {i pos : Nat}
    {f : BitVec 32} (hc : s.cages c = some cg) (hd : cg.fds fd = some (.file i pos f)) :
    0 < tot s X (.ino i) := by
  have := h.held hc hd (.ino i)
  simp [weight] at this; omega

/-- Reads and writes of a pipe keep its reference counts. -/
theorem Inv.pipeIO {s : State} {X : List Desc} (h : Inv s X) {id : Nat} {p p' : Pipe}
    (hp : s.pipes id = some p) (h1 : p'.rref = p.rref) (h2 : p'.wref = p.wref) :
    Inv { s with pipes := upd s.pipes id (some p') } X := by
  refine ⟨h.fs, ?_, ?_, h.cage, h.hand⟩
  · intro id' q hq
    simp only [upd_apply] at hq
    split at hq
    · rename_i e; subst e; cases hq; rw [h1, h2]; exact h.pipe _ _ hp
    · exact h.pipe _ _ hq
  · intro id'
    simp only [upd_apply]
    split
    · rename_i e; subst e; simpa [hp] using h.pex id'
    · exact h.pex id'

theorem readNow_refs (p : Pipe) (n : Nat) (nb : Bool) :
    (p.readNow n nb).1.rref = p.rref ∧ (p.readNow n nb).1.wref = p.wref := by
  simp only [Pipe.Pipe.readNow]
  (repeat' split) <;> exact ⟨rfl, rfl⟩

theorem writeLoop_refs (data : List UInt8) (nb : Bool) : ∀ fuel (p : Pipe) w,
    (Pipe.writeLoop data nb fuel p w).1.rref = p.rref ∧ (Pipe.writeLoop data nb fuel p w).1.wref = p.wref := by
  intro fuel
  induction fuel with
  | zero => intro p w; exact ⟨rfl, rfl⟩
  | succ n ih =>
    intro p w
    simp only [Pipe.writeLoop]
    (repeat' split) <;> first | exact ⟨rfl, rfl⟩ | exact ih _ _

theorem writeNow_refs (p : Pipe) (data : List UInt8) (nb : Bool) :
    (p.writeNow data nb).1.rref = p.rref ∧ (p.writeNow data nb).1.wref = p.wref := by
  simp only [Pipe.Pipe.writeNow]
  split
  · exact ⟨rfl, rfl⟩
  · exact writeLoop_refs _ _ _ _ _

theorem writevLoop_refs (nb : Bool) : ∀ (iovs : List (List UInt8)) (p : Pipe) tot,
    (Pipe.writevLoop nb iovs p tot).1.rref = p.rref ∧ (Pipe.writevLoop nb iovs p tot).1.wref = p.wref := by
  intro iovs
  induction iovs with
  | nil => intro p tot; exact ⟨rfl, rfl⟩
  | cons iov rest ih =>
    intro p tot
    have hw := writeNow_refs p iov nb
    simp only [Pipe.writevLoop]
    generalize hr : p.writeNow iov nb = r at *
    obtain ⟨p', r⟩ := r
    split
    · rename_i heq; cases heq
      have := ih p' (tot + (‹Int›).toNat); exact ⟨this.1.trans hw.1, this.2.trans hw.2⟩
    · rename_i heq; cases heq; exact hw
    · rename_i heq; cases heq; split <;> exact hw
    · rename_i heq; cases heq; exact hw

/-! ## Tame calls -/

/-- Calls that keep the invariant.  Each exception has a witness in `FdProps` or `NsWitness`. -/
def Tame (s : State) (c : Nat) (op : Op) : Prop :=
  match s.cages c with
  | none => True
  | some cg =>
    match op with
    | .rename _ n => RenameTame s.fs (cg.path n)
    | .unlink p => UnlinkTame s.fs (cg.path p)
    | .dup2 o n => ∀ f, getFd cg.fds o = some (some (.epoll f)) → cg.fds n.toNat = none
    | .pipe2 _ => ∀ fd, nextFd cg.fds 0 = some fd → ∃ fd', fd' ≠ fd ∧ fd' < maxFd ∧ cg.fds fd' = none
    | .fork ch => s.cages ch = none
    | .exec ch => ch = c ∨ s.cages ch = none
    | _ => True

/-! ## Calls -/

variable {s : State} {c : Nat} {cg : Cage}

theorem Inv.putCopy {X : List Desc} (h : Inv s X) (hc : s.cages c = some cg) {d : Desc} {newfd : Nat}
    (hd : DescOk s.npipe d) (hh : ∀ r, weight r d ≤ tot s X r) (hf : newfd < maxFd)
    (hz : ∀ r, slotW r (cg.fds newfd) = 0) :
    ∃ s1, s.bump d = some s1 ∧ Inv (s1.setFd c newfd (some (d.setFlags (d.flags &&& ~~~oCLOEXEC)))) X := by
  obtain ⟨s1, e, h1⟩ := h.bump hd hh
  have hs := bump_same e
  refine ⟨s1, e, h1.put (cg := cg) (by rw [hs.cages, hc]) hf hz
    (weight_setFlags (flags_cloexec_off _)) (by rw [hs.npipe]; exact descOk_setFlags (flags_cloexec_off _) hd)⟩

theorem Inv.dupFrom (h : Inv s []) (hc : s.cages c = some cg) {fd : Nat} {d : Desc}
    (hd : cg.fds fd = some d) (start : Nat) :
    Inv (dupFrom s c cg d start).1 [] ∧ (dupFrom s c cg d start).2.ret ≠ .panic := by
  simp only [Kernel.dupFrom]
  split
  · exact ⟨h, by simp [Out.r]⟩
  · rename_i nfd hn
    obtain ⟨-, h2, h3, -⟩ := nextFd_some hn
    split
    · exact ⟨h, by simp [Out.r]⟩
    · obtain ⟨s1, e, h1⟩ := h.putCopy hc ((h.cage c cg hc).2.1 fd d hd).2 (h.held hc hd) h2
        (fun r => by simp [h3, slotW])
      simp only [State.putCopy, e]
      exact ⟨h1, by simp [Out.r]⟩

theorem drop_bump_setFd {d d' : Desc} {fd : Nat} {o o' : Option Desc} :
    (((s.setFd c fd o).drop d).1.bump d').map (fun x => x.setFd c fd o')
      = ((s.drop d).1.bump d').map (fun x => x.setFd c fd o') := by
  rw [drop_setFd]
  generalize (s.drop d).1 = s
  cases hc : s.cages c with
  | none => simp only [State.setFd, hc]
  | some cg =>
    rw [setFd_eq hc]
    have key : ∀ x : State, x.cages = s.cages →
        ({ x with cages := upd s.cages c (some { cg with fds := upd cg.fds fd o }) } : State).setFd c fd o'
          = x.setFd c fd o' := by
      intro x hx
      have e1 : x.cages c = some cg := by rw [hx, hc]
      rw [setFd_eq e1]
      simp only [State.setFd, State.setCage, upd_same, upd_upd, hx]
    cases d' with
    | file i p f =>
      simp only [State.bump]
      cases s.fs.incRef i with
      | none => rfl
      | some fs => simp only [Option.map_some]; exact congrArg some (key { s with fs := fs } rfl)
    | pipe id f =>
      simp only [State.bump]
      cases s.pipes id with
      | none => rfl
      | some p => simp only [Option.map_some]; exact congrArg some (key { s with pipes := upd s.pipes id (some (incrPipe p f)) } rfl)
    | _ => simp only [State.bump, Option.map_some]; exact congrArg some (key s rfl)

theorem Inv.dup2 (h : Inv s []) (hc : s.cages c = some cg) (old new : Int)
    (ht : ∀ f, getFd cg.fds old = some (some (.epoll f)) → cg.fds new.toNat = none) :
    Inv (dup2 s c cg old new).1 [] ∧ (dup2 s c cg old new).2.ret ≠ .panic := by
  simp only [Kernel.dup2]
  split
  · exact ⟨h, by simp [Out.r]⟩
  split
  · exact ⟨h, by simp [Out.r]⟩
  rename_i hr hne
  split
  · exact ⟨h, by simp [Out.r]⟩
  · exact ⟨h, by simp [Out.r]⟩
  rename_i d hd
  obtain ⟨g1, g2, g3, g4⟩ := getFd_some hd
  have hdok := ((h.cage c cg hc).2.1 _ _ g1).2
  cases hn : cg.fds new.toNat with
  | none =>
    simp only [reduceCtorEq, if_false]
    split
    · exact ⟨h, by simp [Out.r]⟩
    · obtain ⟨s1, e, h1⟩ := h.putCopy hc hdok (h.held hc g1) (newfd := new.toNat) (by omega)
        (fun r => by simp [hn, slotW])
      simp only [State.putCopy, e]
      exact ⟨h1, by simp [Out.r]⟩
  | some dn =>
    have hepoll : d.isEpoll = false := by
      cases d <;> simp only [Desc.isEpoll]
      have := ht _ hd; rw [hn] at this; cases this
    have h1 := (h.take hc hn).drop
    have hs := drop_same (s.setFd c new.toNat none) dn
    have hc1 : ((s.setFd c new.toNat none).drop dn).1.cages c
        = some { cg with fds := upd cg.fds new.toNat none } := by
      rw [hs.cages, setFd_eq hc]; simp
    have hnp : ((s.setFd c new.toNat none).drop dn).1.npipe = s.npipe := by
      rw [hs.npipe, setFd_eq hc]
    have hold : (upd cg.fds new.toNat none) old.toNat = some d := by
      rw [upd_ne _ _ (by omega)]; exact g1
    obtain ⟨s1, e, h2⟩ := h1.1.putCopy hc1 (newfd := new.toNat) (by rw [hnp]; exact hdok)
      (h1.1.held hc1 hold) (by omega) (fun r => by simp [slotW])
    have h3 := h1.2
    rw [drop_setFd] at h3
    simp only at h3
    have key := drop_bump_setFd (s := s) (c := c) (d := dn) (d' := d) (fd := new.toNat) (o := none)
      (o' := some (d.setFlags (d.flags &&& ~~~oCLOEXEC)))
    rw [e] at key
    simp only [h3, reduceCtorEq, if_false, hepoll, Bool.false_eq_true, State.putCopy]
    cases hb : (s.drop dn).1.bump d with
    | none => rw [hb] at key; cases key
    | some s2 =>
      rw [hb] at key
      simp only [Option.map_some, Option.some.injEq] at key
      simp only
      rw [← key]
      exact ⟨h2, by simp [Out.r]⟩

theorem endOf_read {fl : BitVec 32} (flags : BitVec 32) (h : fl = flags &&& (oCLOEXEC ||| oNONBLOCK)) :
    endOf (0#32 ||| fl) = some .read ∧ endOf (1#32 ||| fl) = some .write := by
  have e0 : fl &&& oRDWRFLAGS = 0#32 := by
    rw [h, BitVec.and_assoc]
    have : (oCLOEXEC ||| oNONBLOCK) &&& oRDWRFLAGS = 0#32 := by decide
    rw [this]; simp
  have e1 : (0#32 ||| fl) &&& oRDWRFLAGS = 0#32 := by rw [BitVec.and_or_distrib_right, e0]; decide
  have e2 : (1#32 ||| fl) &&& oRDWRFLAGS = 1#32 := by rw [BitVec.and_or_distrib_right, e0]; decide
  unfold endOf isRdonly isWronly
  rw [e1, e2]; exact ⟨rfl, rfl⟩

theorem Inv.npipe_fresh {X : List Desc} (h : Inv s X) (e : End) : tot s X (.pend s.npipe e) = 0 := by
  have hd : ∀ d, DescOk s.npipe d → weight (.pend s.npipe e) d = 0 := by
    intro d hd
    cases d <;> simp only [weight]
    simp only [DescOk] at hd
    rw [if_neg]; intro x; omega
  have h1 : cagesW (.pend s.npipe e) s.cages = 0 := by
    apply sumTo_zero
    intro c _
    cases hc : s.cages c with
    | none => rfl
    | some cg =>
      apply sumTo_zero
      intro fd _
      cases hf : cg.fds fd with
      | none => simp only [hf, slotW]
      | some d => simp only [hf, slotW]; exact hd d ((h.cage c cg hc).2.1 fd d hf).2
  have h2 : ∀ X' : List Desc, (∀ d ∈ X', DescOk s.npipe d) → handW (.pend s.npipe e) X' = 0 := by
    intro X'
    induction X' with
    | nil => intro _; rfl
    | cons d X' ih => intro hh; simp only [handW, hd d (hh d (by simp)), ih (fun x hx => hh x (by simp [hx]))]
  simp only [tot, h1, h2 X h.hand]

theorem DescOk.mono {n m : Nat} (h : n ≤ m) {d : Desc} (hd : DescOk n d) : DescOk m d := by
  cases d <;> simp only [DescOk] at *
  exact ⟨by omega, hd.2⟩

theorem Inv.pipe2 (h : Inv s []) (hc : s.cages c = some cg) (flags : BitVec 32)
    (ht : ∀ fd, nextFd cg.fds 0 = some fd → ∃ fd', fd' ≠ fd ∧ fd' < maxFd ∧ cg.fds fd' = none) :
    Inv (pipe2 s c cg flags).1 [] ∧ (pipe2 s c cg flags).2.ret ≠ .panic := by
  simp only [Kernel.pipe2]
  split
  · exact ⟨h, by simp [Out.r]⟩
  rename_i rfd hr
  obtain ⟨-, r2, r3, -⟩ := nextFd_some hr
  generalize hfl : flags &&& (oCLOEXEC ||| oNONBLOCK) = fl
  obtain ⟨er, ew⟩ := endOf_read flags hfl.symm
  generalize hdr : Desc.pipe s.npipe (0#32 ||| fl) = dr
  generalize hdw : Desc.pipe s.npipe (1#32 ||| fl) = dw
  -- the new pipe with both ends in hand
  have h1 : Inv { s with pipes := upd s.pipes s.npipe (some (Pipe.Pipe.new Pipe.pipeCapacity))
                         npipe := s.npipe + 1 } [dr, dw] := by
    refine ⟨?_, ?_, ?_, ?_, ?_⟩
    · have := h.fs
      subst hdr hdw
      simpa only [tot, handW, weight, Nat.add_zero] using this
    · intro id p hp
      simp only [upd_apply] at hp
      split at hp
      · rename_i e; subst e; cases hp
        have a := h.npipe_fresh .read
        have b := h.npipe_fresh .write
        simp only [tot, handW, Nat.add_zero] at a b
        subst hdr hdw
        simp only [tot, handW, weight, a, b, er, ew, Pipe.Pipe.new]; decide
      · rename_i e
        have := h.pipe id p hp
        subst hdr hdw
        simpa [tot, handW, weight, Ne.symm e] using this
    · intro id
      simp only [upd_apply]
      split
      · rename_i e; subst e; simp
      · rw [h.pex id]; omega
    · intro c' cg' hc'
      obtain ⟨a, b, d⟩ := h.cage c' cg' hc'
      exact ⟨a, fun fd x hx => ⟨(b fd x hx).1, (b fd x hx).2.mono (Nat.le_succ _)⟩, d⟩
    · intro d hd
      subst hdr hdw
      simp only [List.mem_cons, List.not_mem_nil, or_false] at hd
      rcases hd with rfl | rfl
      · exact ⟨Nat.lt_succ_self _, by rw [er]; simp⟩
      · exact ⟨Nat.lt_succ_self _, by rw [ew]; simp⟩
  have h2 := h1.put (c := c) (cg := cg) hc r2 (fun r => by simp [r3, slotW]) (fun _ => rfl) (h1.hand dr (by simp))
  split
  · -- no second descriptor: excluded
    rename_i hno
    obtain ⟨fd', f1, f2, f3⟩ := ht rfd hr
    exact absurd (by rw [upd_ne _ _ f1]; exact f3) (nextFd_none hno fd' (by omega) f2)
  · rename_i wfd hw
    obtain ⟨-, w2, w3, -⟩ := nextFd_some hw
    have hc2 : (State.setFd { s with pipes := upd s.pipes s.npipe (some (Pipe.Pipe.new Pipe.pipeCapacity))
                                     npipe := s.npipe + 1 } c rfd (some dr)).cages c
        = some { cg with fds := upd cg.fds rfd (some dr) } := by
      simp only [State.setFd, hc, State.setCage, upd_same]
    have hnp : (State.setFd { s with pipes := upd s.pipes s.npipe (some (Pipe.Pipe.new Pipe.pipeCapacity))
                                     npipe := s.npipe + 1 } c rfd (some dr)).npipe = s.npipe + 1 := by
      simp only [State.setFd, hc, State.setCage]
    refine ⟨h2.put hc2 w2 (fun r => by simp only [w3, slotW]) (fun _ => rfl) (by
      rw [hnp]; exact h1.hand dw (by simp)), by simp⟩

theorem Inv.putNew (h : Inv s []) (hc : s.cages c = some cg) {d : Desc} (hz : ∀ r, weight r d = 0)
    (hd : DescOk s.npipe d) : Inv (putNew s c cg d).1 [] ∧ (putNew s c cg d).2.ret ≠ .panic := by
  simp only [Kernel.putNew]
  split
  · exact ⟨h, by simp [Out.r]⟩
  · rename_i fd hn
    obtain ⟨-, h2, h3, -⟩ := nextFd_some hn
    exact ⟨(h.plain hz hd).put hc h2 (fun r => by simp [h3, slotW]) (fun _ => rfl) hd, by simp [Out.r]⟩

theorem Inv.openSys (h : Inv s []) (hc : s.cages c = some cg) (p : Str) (flags mode : BitVec 32) :
    Inv (openSys s c cg p flags mode).1 [] ∧ (openSys s c cg p flags mode).2.ret ≠ .panic := by
  simp only [Kernel.openSys]
  split
  · exact ⟨h, by simp [Out.r]⟩
  split
  · exact ⟨h, by simp [Out.r]⟩
  rename_i fd hn
  obtain ⟨-, h2, h3, -⟩ := nextFd_some hn
  have hp := (path_spec (h.cage c cg hc).2.2 p).1
  rcases h.fs.openP hp flags mode with ⟨r, e, hr⟩ | ⟨fs', i, sz, e, hf⟩
  · simp only [e]
    exact ⟨h, by simpa [Out.r] using hr⟩
  · simp only [e]
    have h1 : Inv { s with fs := fs' } [newDesc i sz flags] := by
      refine ⟨?_, ?_, h.pex, h.cage, ?_⟩
      · refine cast (congrArg _ ?_) hf
        funext j
        simp only [tot, handW, weight, newDesc, upd_apply]
        by_cases e : j = i
        · subst e; simp
        · simp [e, Ne.symm e]
      · intro id q hq
        have := h.pipe id q hq
        simpa only [tot, handW, weight, newDesc, Nat.add_zero] using this
      · intro d hd
        simp only [List.mem_singleton] at hd
        subst hd; trivial
    exact ⟨h1.put (c := c) (cg := cg) hc h2 (fun r => by simp [h3, slotW]) (fun _ => rfl) trivial,
      by simp [Out.r]⟩

theorem Inv.cwd (h : Inv s []) (hc : s.cages c = some cg) {w : Str} (hw : CwdOk w) :
    Inv (s.setCage c (some { cg with cwd := w })) [] := by
  have hco := h.cage c cg hc
  refine h.move rfl rfl rfl ?_ ?_ (by simp)
  · intro r
    have := cagesW_upd r s.cages hco.1 (some { cg with cwd := w })
    rw [hc] at this
    simp only [cageW] at this
    simp only [tot, State.setCage]; omega
  · intro c' cg' h'
    simp only [State.setCage, upd_apply] at h'
    split at h'
    · rename_i e; subst e; cases h'; exact ⟨hco.1, hco.2.1, hw⟩
    · exact h.cage c' cg' h'

/-- Moving the offset of a file descriptor. -/
theorem Inv.seek {X} (h : Inv s X) (hc : s.cages c = some cg) {fd i pos : Nat} {f : BitVec 32}
    (hd : cg.fds fd = some (.file i pos f)) (pos' : Nat) : Inv (s.setFd c fd (some (.file i pos' f))) X :=
  h.swap hc hd (fun r => by cases r <;> rfl) trivial

theorem Inv.writeIno {X} (h : Inv s X) (hc : s.cages c = some cg) {fd i pos : Nat} {f : BitVec 32}
    (hd : cg.fds fd = some (.file i pos f)) {nd : Inode} (hi : s.fs.inodes i = some nd)
    (hk : nd.kind = .file) {off : Nat} {data : List UInt8} {fs' : Fs}
    (he : s.fs.writeIno i nd off data = some fs') : Inv { s with fs := fs' } X :=
  h.onFs (h.fs.writeIno hi hk (h.file_held hc hd) he)

/-! ## Processes -/

/-- A table with the selected slots below `k` emptied. -/
def closed (sel : Desc → Bool) (k : Nat) (t : Table) : Table := fun fd =>
  match t fd with
  | none => none
  | some d => if fd < k ∧ sel d then none else some d

theorem closed_zero (sel : Desc → Bool) (t : Table) : closed sel 0 t = t := by
  funext fd; simp only [closed]; cases t fd <;> simp

theorem closed_at (sel : Desc → Bool) (k : Nat) (t : Table) : closed sel k t k = t k := by
  simp only [closed]; cases t k <;> simp

theorem closed_succ (sel : Desc → Bool) (k : Nat) (t : Table) :
    closed sel (k + 1) t = upd (closed sel k t) k
      (match t k with | none => none | some d => if sel d then none else some d) := by
  funext fd
  simp only [upd_apply]
  by_cases e : fd = k
  · subst e; simp only [closed, if_true]; cases t fd <;> simp
  · have : fd < k + 1 ↔ fd < k := by omega
    simp only [closed, e, if_false, this]

theorem Inv.closeWhere (h : Inv s []) (hc : s.cages c = some cg) (sel : Desc → Bool) :
    ∀ k, k ≤ maxFd → ∃ s', closeWhere sel c k s = (s', .ok 0) ∧ Inv s' [] ∧ s'.npipe = s.npipe ∧
      s'.cages = upd s.cages c (some { cg with fds := closed sel k cg.fds }) := by
  intro k
  induction k with
  | zero =>
    intro _
    refine ⟨s, rfl, h, rfl, ?_⟩
    rw [closed_zero]
    show s.cages = upd s.cages c (some cg)
    rw [← hc, upd_self]
  | succ k ih =>
    intro hk
    obtain ⟨s', e1, e2, e3, e4⟩ := ih (by omega)
    have hc' : s'.cages c = some { cg with fds := closed sel k cg.fds } := by rw [e4]; simp
    simp only [Kernel.closeWhere, e1, hc', closed_at, closed_succ]
    have hself : ∀ o, cg.fds k = o → s'.cages = upd s.cages c
        (some { cg with fds := upd (closed sel k cg.fds) k o }) := by
      intro o ho
      have : upd (closed sel k cg.fds) k o = closed sel k cg.fds := by
        rw [← ho, ← closed_at sel k cg.fds, upd_self]
      rw [this, e4]
    cases hk' : cg.fds k with
    | none => exact ⟨s', rfl, e2, e3, hself none hk'⟩
    | some d =>
      by_cases hs : sel d = true
      · simp only [hs, if_true]
        obtain ⟨s'', g1, g2, g3, g4⟩ := e2.closeSlot (fd := k) (d := d) hc' (by simp only [closed_at]; exact hk')
        refine ⟨s'', g1, g2, g4.trans e3, ?_⟩
        rw [g3, e4, upd_upd]
      · simp only [hs, if_false, Bool.false_eq_true]
        exact ⟨s', rfl, e2, e3, hself _ hk'⟩

/-- The child's table after `k` slots are copied. -/
def forked (k : Nat) (t : Table) : Table := fun fd =>
  if fd < k ∧ t fd ≠ none then t fd else initTable fd

theorem initTable_W (r : Res) (fd : Nat) : slotW r (initTable fd) = 0 := by
  unfold initTable
  split <;> cases r <;> rfl

theorem initTable_ok (n fd : Nat) (d : Desc) (h : initTable fd = some d) : fd < maxFd ∧ DescOk n d := by
  unfold initTable at h
  split at h <;> cases h <;> exact ⟨by decide, trivial⟩

theorem bump_cagesOf {s s' : State} {d : Desc} (h : s.bump d = some s') :
    s'.cages = s.cages ∧ s'.npipe = s.npipe := ⟨(bump_same h).cages, (bump_same h).npipe⟩

theorem Inv.forkCopy {ch : Nat} (h : Inv s []) (hc : s.cages c = some cg) (hne : ch ≠ c)
    {w : Str} {par : Nat} (hch : s.cages ch = some { fds := initTable, cwd := w, parent := par }) :
    ∀ k, k ≤ maxFd → ∃ s', forkCopy cg.fds ch k s = some s' ∧ Inv s' [] ∧ s'.npipe = s.npipe ∧
      s'.cages = upd s.cages ch (some { fds := forked k cg.fds, cwd := w, parent := par }) := by
  intro k
  induction k with
  | zero =>
    intro _
    refine ⟨s, rfl, h, rfl, ?_⟩
    have : forked 0 cg.fds = initTable := by funext fd; simp [forked]
    rw [this, ← hch, upd_self]
  | succ k ih =>
    intro hk
    obtain ⟨s', e1, e2, e3, e4⟩ := ih (by omega)
    simp only [Kernel.forkCopy, e1]
    have hch' : s'.cages ch = some { fds := forked k cg.fds, cwd := w, parent := par } := by rw [e4]; simp
    have hc' : s'.cages c = some cg := by rw [e4]; simp [Ne.symm hne, hc]
    have hsucc : ∀ o, cg.fds k = o → forked (k + 1) cg.fds
        = upd (forked k cg.fds) k (match o with | none => initTable k | some d => some d) := by
      intro o ho
      funext fd
      simp only [upd_apply, forked]
      by_cases e : fd = k
      · subst e; cases o <;> simp [ho]
      · have : fd < k + 1 ↔ fd < k := by omega
        simp only [e, if_false, this]
    have hat : forked k cg.fds k = initTable k := by simp [forked]
    cases hk' : cg.fds k with
    | none =>
      refine ⟨s', rfl, e2, e3, ?_⟩
      rw [hsucc _ hk', ← hat, upd_self, e4]
    | some d =>
      have hd := ((e2.cage c cg hc').2.1 k d hk').2
      obtain ⟨s'', g1, g2⟩ := e2.bump hd (e2.held hc' hk')
      have hs := bump_same g1
      have hch'' : s''.cages ch = some { fds := forked k cg.fds, cwd := w, parent := par } := by
        rw [hs.cages, hch']
      simp only [g1]
      refine ⟨_, rfl, g2.put hch'' (by omega) (fun r => by
        simp only [hat]; exact initTable_W r k) (fun _ => rfl) (by rw [hs.npipe]; exact hd), ?_, ?_⟩
      · rw [setFd_eq hch'']; exact hs.npipe.trans e3
      · rw [setFd_eq hch'', hsucc _ hk', hs.cages, e4, upd_upd]

/-- Adding a cage without references. -/
theorem Inv.addCage (h : Inv s []) {ch : Nat} (hlt : ch < maxCage) (hn : s.cages ch = none) {w : Str}
    (hw : CwdOk w) (par : Nat) :
    Inv (s.setCage ch (some { fds := initTable, cwd := w, parent := par })) [] := by
  refine h.move rfl rfl rfl ?_ ?_ (by simp)
  · intro r
    have := cagesW_upd r s.cages hlt (some { fds := initTable, cwd := w, parent := par })
    rw [hn] at this
    have hz : tableW r initTable = 0 := sumTo_zero (fun fd _ => initTable_W r fd)
    simp only [cageW, hz] at this
    simp only [tot, State.setCage]; omega
  · intro c' cg' h'
    simp only [State.setCage, upd_apply] at h'
    split at h'
    · rename_i e; subst e; cases h'; exact ⟨hlt, initTable_ok _, hw⟩
    · exact h.cage c' cg' h'

theorem Inv.fork (h : Inv s []) (hc : s.cages c = some cg) (ch : Nat) (ht : s.cages ch = none) :
    Inv (fork s c cg ch).1 [] := by
  have hne : ch ≠ c := by rintro rfl; rw [hc] at ht; cases ht
  simp only [Kernel.fork]
  split
  · exact h
  · rename_i hlt
    have h1 := h.addCage (by omega) ht (h.cage c cg hc).2.2 c
    obtain ⟨s', e1, e2, e3, e4⟩ := h1.forkCopy (c := c) (cg := cg) (ch := ch)
      (by simp [State.setCage, Ne.symm hne, hc]) hne (by simp [State.setCage]; exact ⟨rfl, rfl⟩) maxFd (Nat.le_refl maxFd)
    simp only [e1]
    split
    · split
      · exact h
      · rename_i nd hnd
        split
        · rename_i hd
          exact e2.onFs (e2.fs.dirRef hnd hd)
        · exact h
    · exact h

theorem tableW_none (r : Res) {t : Table} (h : ∀ fd, fd < maxFd → t fd = none) : tableW r t = 0 :=
  sumTo_zero (fun fd hf => by simp [h fd hf, slotW])

theorem Inv.exec (h : Inv s []) (hc : s.cages c = some cg) (ch : Nat) (ht : ch = c ∨ s.cages ch = none) :
    Inv (exec s c cg ch).1 [] := by
  simp only [Kernel.exec]
  split
  · exact h
  · rename_i hlt
    obtain ⟨s', e1, e2, e3, e4⟩ := h.closeWhere hc (fun d => d.flags &&& oCLOEXEC != 0) maxFd (Nat.le_refl maxFd)
    have hc' : s'.cages c = some { cg with fds := closed (fun d => d.flags &&& oCLOEXEC != 0) maxFd cg.fds } := by
      rw [e4]; simp
    simp only [e1, hc']
    have hcage := e2.cage c _ hc'
    refine e2.move rfl rfl rfl ?_ ?_ (by simp)
    · intro r
      simp only [tot, State.setCage]
      have a := cagesW_upd r s'.cages hcage.1 none
      have b := cagesW_upd r (upd s'.cages c none) (c := ch) (by omega)
        (some { cg with fds := closed (fun d => d.flags &&& oCLOEXEC != 0) maxFd cg.fds })
      have : cageW r (upd s'.cages c none ch) = 0 := by
        simp only [upd_apply]
        split
        · rfl
        · rename_i hne
          rcases ht with rfl | ht
          · exact absurd rfl hne
          · rw [e4]; simp [hne, ht, cageW]
      rw [hc'] at a
      simp only [cageW] at a b this
      omega
    · intro c' cg' h'
      simp only [State.setCage, upd_apply] at h'
      split at h'
      · rename_i e; subst e; cases h'; exact ⟨by omega, hcage.2⟩
      · split at h'
        · cases h'
        · exact e2.cage c' cg' h'

theorem Inv.exit (h : Inv s []) (hc : s.cages c = some cg) (st : Int) : Inv (exit s c st).1 [] := by
  obtain ⟨s', e1, e2, e3, e4⟩ := h.closeWhere hc (fun _ => true) maxFd (Nat.le_refl maxFd)
  have hc' : s'.cages c = some { cg with fds := closed (fun _ => true) maxFd cg.fds } := by rw [e4]; simp
  have hcage := e2.cage c _ hc'
  have heq : Kernel.exit s c st = (s'.setCage c none, .r (.ok st)) := by
    unfold Kernel.exit; rw [e1]
  rw [heq]
  refine e2.move rfl rfl rfl ?_ ?_ (by simp)
  · intro r
    simp only [tot, State.setCage]
    have a := cagesW_upd r s'.cages hcage.1 none
    rw [hc'] at a
    have : tableW r (closed (fun _ => true) maxFd cg.fds) = 0 := tableW_none r (by
      intro fd hf; simp only [closed]; cases cg.fds fd <;> simp [hf])
    simp only [cageW, this] at a
    omega
  · intro c' cg' h'
    simp only [State.setCage, upd_apply] at h'
    split at h'
    · cases h'
    · exact e2.cage c' cg' h'

/-! ## All calls -/

theorem nonEmpty_inv {p : Str} {r : State × Out} (h : Inv s []) (hr : Inv r.1 []) :
    Inv (nonEmpty p s r).1 [] := by
  simp only [nonEmpty]; split
  · exact h
  · exact hr

/-- Every tame call keeps the invariant. -/
theorem Inv.step (h : Inv s []) (c : Nat) (op : Op) (ht : Tame s c op) : Inv (step s c op).1 [] := by
  simp only [Kernel.step, Tame] at ht ⊢
  cases hc : s.cages c with
  | none => exact h
  | some cg =>
    have hcage := h.cage c cg hc
    have gp := fun p => (path_spec hcage.2.2 p).1
    rw [hc] at ht
    have fin : ∀ {fd : Int} {o}, getFd cg.fds fd = some o → cg.fds fd.toNat = o := fun h => (getFd_some h).1
    cases op with
    | openP p f m => exact (h.openSys hc p f m).1
    | mkdir p m => exact nonEmpty_inv h (h.onFs (h.fs.mkdir (gp p) m).1)
    | mknod p m d => exact nonEmpty_inv h (h.onFs (h.fs.mknod (gp p) m d).1)
    | link o n => exact nonEmpty_inv h (nonEmpty_inv h (h.onFs (h.fs.link (gp o) (gp n)).1))
    | unlink p => exact nonEmpty_inv h (h.onFs (h.fs.unlink (gp p) ht).1)
    | rmdir p => exact nonEmpty_inv h (h.onFs (h.fs.rmdir (gp p)))
    | rename o n => exact nonEmpty_inv h (nonEmpty_inv h (h.onFs (h.fs.rename (gp o) (gp n) ht).1))
    | chmod p m => exact h.onFs (h.fs.chmod _ m)
    | fchmod fd m =>
      simp only [fchmod]
      (repeat' split) <;> first | exact h | exact h.onFs (h.fs.chmodIno _ m)
    | stat p => exact h
    | fstat fd => exact h
    | access p m => exact h
    | chdir p =>
      simp only [chdir]
      (repeat' split) <;> first | exact h | exact h.cwd hc (path_spec hcage.2.2 p).2
    | fchdir fd =>
      simp only [fchdir]
      (repeat' split) <;> first | exact h | exact h.cwd hc (path_spec hcage.2.2 _).2
    | truncate p l => exact h.onFs (h.fs.truncate (gp p) l).1
    | ftruncate fd l =>
      simp only [ftruncate]
      split
      · exact h
      · exact h
      · rename_i i pos f hd
        split
        · exact h
        · have hp := h.file_held hc (fin hd)
          obtain ⟨nd, hnd, -⟩ := h.fs.held hp
          exact h.onFs (h.fs.truncIno i l true (fun _ => hp) ⟨nd, hnd⟩).1
      · exact h
    | read fd n =>
      simp only [read]
      split
      · exact h
      · exact h
      · rename_i d hd
        have hd := fin hd
        cases d with
        | file i pos f =>
          simp only
          (repeat' split) <;> first | exact h | exact h.seek hc hd _
        | pipe id f =>
          simp only
          split
          · exact h
          · split
            · exact h
            · rename_i p hp
              exact h.pipeIO hp (readNow_refs _ _ _).1 (readNow_refs _ _ _).2
        | _ => exact h
    | pread fd n off =>
      simp only [pread]
      (repeat' split) <;> exact h
    | write fd data =>
      simp only [write]
      split
      · exact h
      · exact h
      · rename_i d hd
        have hd := fin hd
        cases d with
        | file i pos f =>
          simp only
          split
          · exact h
          split
          · exact h
          rename_i nd hi
          cases hk : nd.kind with
          | file =>
            simp only
            split
            · exact h
            · rename_i fs' he
              exact (h.writeIno hc hd hi hk he).seek (cg := cg) hc hd _
          | _ => exact h
        | pipe id f =>
          simp only
          split
          · exact h
          · split
            · exact h
            · rename_i p hp
              exact h.pipeIO hp (writeNow_refs _ _ _).1 (writeNow_refs _ _ _).2
        | stream k f => simp only; split <;> exact h
        | _ => exact h
    | pwrite fd data off =>
      simp only [pwrite]
      split
      · exact h
      · exact h
      · rename_i d hd
        have hd := fin hd
        cases d with
        | file i pos f =>
          simp only
          split
          · exact h
          split
          · exact h
          rename_i nd hi
          cases hk : nd.kind with
          | file =>
            simp only
            split
            · exact h
            split
            · exact h
            · rename_i fs' he
              exact h.writeIno hc hd hi hk he
          | _ => exact h
        | _ => exact h
    | writev fd iovs =>
      simp only [writev]
      split
      · exact h
      · exact h
      · rename_i d hd
        have hd := fin hd
        cases d with
        | file i pos f =>
          simp only
          split
          · exact h
          split
          · exact h
          rename_i nd hi
          cases hk : nd.kind with
          | file =>
            simp only
            split
            · exact h
            · rename_i fs' he
              exact (h.writeIno hc hd hi hk he).seek (cg := cg) hc hd _
          | _ => exact h
        | pipe id f =>
          simp only
          split
          · exact h
          · split
            · exact h
            · rename_i p hp
              exact h.pipeIO hp (writevLoop_refs _ _ _ _).1 (writevLoop_refs _ _ _ _).2
        | _ => exact h
    | lseek fd off wh =>
      simp only [lseek]
      split
      · exact h
      · exact h
      · rename_i d hd
        have hd := fin hd
        cases d with
        | file i pos f =>
          simp only
          (repeat' split) <;> first | exact h | exact h.seek hc hd _
        | _ => exact h
    | getdents fd b =>
      simp only [getdents]
      split
      · exact h
      split
      · exact h
      · exact h
      · rename_i i pos f hd
        have hd := fin hd
        (repeat' split) <;> first | exact h | exact h.seek hc hd _
      · exact h
    | dup fd =>
      simp only [dup]
      split
      · exact h
      split
      · exact h
      · exact h
      · rename_i d hd
        exact (h.dupFrom hc (fin hd) 0).1
    | dup2 o n => exact (h.dup2 hc o n ht).1
    | close fd =>
      simp only [close]
      split
      · exact h
      · rename_i o hd
        cases o with
        | none => exact h
        | some d =>
          obtain ⟨s', e1, e2, -⟩ := h.closeSlot hc (fin hd)
          simp only [e1]; exact e2
    | fcntl fd cmd arg =>
      simp only [fcntl]
      split
      · exact h
      · exact h
      · rename_i d hd
        have hd := fin hd
        have hok := (hcage.2.1 _ _ hd).2
        (repeat' split) <;> first
          | exact h
          | exact (h.dupFrom hc hd _).1
          | exact h.swap hc hd (weight_setFlags (flags_cloexec_on _)) (descOk_setFlags (flags_cloexec_on _) hok)
          | exact h.swap hc hd (weight_setFlags (flags_cloexec_off _)) (descOk_setFlags (flags_cloexec_off _) hok)
          | exact h.swap hc hd (weight_setFlags (flags_setfl _ _)) (descOk_setFlags (flags_setfl _ _) hok)
    | pipe2 fl => exact (h.pipe2 hc fl ht).1
    | socket nb ce => exact (h.putNew hc (d := .sock _) (fun r => by cases r <;> rfl) trivial).1
    | epollCreate n =>
      simp only
      split
      · exact h
      · exact (h.putNew hc (d := .epoll _) (fun r => by cases r <;> rfl) trivial).1
    | fork ch => exact h.fork hc ch ht
    | exec ch => exact h.exec hc ch ht
    | exit st => exact h.exit hc st

end Verif.Kernel
