import Verif.FdProps
import Verif.PipeHist

/-! # Where descriptors come from: lemmas for property C107 -/

namespace Verif.Confine
open Verif.Kernel Verif.Fs Verif.Path

theorem same_refl (d : Desc) : SameObject d d := by cases d <;> simp [SameObject]

theorem same_trans {a b d : Desc} (h1 : SameObject a b) (h2 : SameObject b d) : SameObject a d := by
  cases a <;> cases b <;> simp only [SameObject] at h1 <;> cases d <;> simp only [SameObject] at h2 ⊢
  all_goals first | exact ⟨h1.1.trans h2.1, h1.2.trans h2.2⟩ | exact h1.trans h2

theorem same_setFlags (d : Desc) (g : BitVec 32) (h : g &&& 3#32 = d.flags &&& 3#32) : SameObject d (d.setFlags g) := by
  cases d <;> simp_all [SameObject, Desc.setFlags, Desc.flags]

theorem same_cloexec (d : Desc) : SameObject d (d.setFlags (d.flags &&& ~~~oCLOEXEC)) := by
  apply same_setFlags
  rw [BitVec.and_assoc, (by decide : ~~~oCLOEXEC &&& 3#32 = 3#32)]

/-- Each descriptor of cage `c` in `s'` is one for an object `c` had a descriptor for in `s`. -/
def Old (s : State) (c : Nat) (s' : State) : Prop :=
  ∀ fd d', slot s' c fd = some d' → ∃ fd0 d, slot s c fd0 = some d ∧ SameObject d d'

theorem Old.of_eq {s s' : State} {c : Nat} (h : s'.cages = s.cages) : Old s c s' := by
  intro fd d' hd
  refine ⟨fd, d', ?_, same_refl _⟩
  simpa only [slot, h] using hd

theorem Old.trans {a b d : State} {c : Nat} (h1 : Old a c b) (h2 : Old b c d) : Old a c d := by
  intro fd d' hd
  obtain ⟨f1, d1, e1, s1⟩ := h2 fd d' hd
  obtain ⟨f2, d2, e2, s2⟩ := h1 f1 d1 e1
  exact ⟨f2, d2, e2, same_trans s2 s1⟩

theorem slot_setFd {s : State} {c fd n : Nat} {o : Option Desc} {d' : Desc} (h : slot (s.setFd c n o) c fd = some d') :
    (fd = n ∧ o = some d') ∨ slot s c fd = some d' := by
  cases hc : s.cages c with
  | none => simp only [State.setFd, hc] at h; right; exact h
  | some cg =>
    rw [slot_upd (setFd_at hc), if_pos rfl] at h
    split at h
    · exact .inl ⟨‹_›, h⟩
    · right; rw [slot_eq hc]; exact h

theorem Old.clear {s s1 : State} {c n : Nat} (h : s1.cages = s.cages) : Old s c (s1.setFd c n none) := by
  intro fd d' hd
  rcases slot_setFd hd with ⟨-, h'⟩ | h'
  · cases h'
  · exact Old.of_eq h fd d' h'

theorem Old.set {s s1 : State} {c n fd0 : Nat} {d d1 : Desc} (h : s1.cages = s.cages) (h0 : slot s c fd0 = some d)
    (hs : SameObject d d1) : Old s c (s1.setFd c n (some d1)) := by
  intro fd d' hd
  rcases slot_setFd hd with ⟨-, h'⟩ | h'
  · cases h'; exact ⟨fd0, d, h0, hs⟩
  · exact Old.of_eq h fd d' h'

theorem slot_getFd {s : State} {c : Nat} {cg : Cage} (hc : s.cages c = some cg) {fd : Int} {d : Desc} (h : getFd cg.fds fd = some (some d)) :
    slot s c fd.toNat = some d := by
  rw [slot_eq hc]
  simp only [getFd] at h
  split at h
  · cases h
  · simpa using h

theorem Old.setCwd {s : State} {c : Nat} {cg : Cage} (hc : s.cages c = some cg) (w : Str) :
    Old s c (s.setCage c (some { cg with cwd := w })) := by
  intro fd d' hd
  refine ⟨fd, d', ?_, same_refl _⟩
  simp only [slot, State.setCage, upd_apply, if_true] at hd
  rw [slot_eq hc]; exact hd

theorem Old.closeSlot (s : State) (c fd : Nat) (o : Option Desc) : Old s c (s.closeSlot c fd o).1 := by
  simp only [State.closeSlot]
  split
  · exact .of_eq rfl
  · rename_i d
    have hd := drop_cages s d
    split
    · rename_i s' v e; rw [e] at hd; exact .clear hd
    · rename_i s' r e; rw [e] at hd; exact .of_eq hd

theorem Old.putCopy {s s1 : State} {c fd0 : Nat} {d : Desc} (h : s1.cages = s.cages) (h0 : slot s c fd0 = some d) (n : Nat) :
    Old s c (s1.putCopy c d n).1 := by
  simp only [State.putCopy]
  split
  · exact .of_eq h
  · rename_i s2 e
    exact .set ((bump_same e).cages.trans h) h0 (same_cloexec d)

theorem Old.dupFrom {s : State} {c fd0 : Nat} {d : Desc} (cg : Cage) (h0 : slot s c fd0 = some d) (n : Nat) :
    Old s c (dupFrom s c cg d n).1 := by
  simp only [Kernel.dupFrom]
  split
  · exact .of_eq rfl
  · split
    · exact .of_eq rfl
    · exact .putCopy rfl h0 _

theorem Old.dup2 {s : State} {c : Nat} {cg : Cage} (hc : s.cages c = some cg) (o n : Int) : Old s c (dup2 s c cg o n).1 := by
  unfold Kernel.dup2
  split
  · exact .of_eq rfl
  split
  · exact .of_eq rfl
  split
  · exact .of_eq rfl
  · exact .of_eq rfl
  · rename_i d hd
    have h0 := slot_getFd hc hd
    have hz : ∀ dn, (s.drop dn).1.cages = s.cages := fun dn => drop_cages s dn
    cases cg.fds n.toNat with
    | none =>
      simp only [reduceCtorEq, if_false]
      split
      · exact .of_eq rfl
      · exact .putCopy rfl h0 _
    | some dn =>
      simp only
      split
      · exact .of_eq (hz dn)
      · split
        · exact .of_eq (hz dn)
        · exact .putCopy (hz dn) h0 _

theorem Old.closeWhere (sel : Desc → Bool) (c : Nat) : ∀ n s, Old s c (closeWhere sel c n s).1 := by
  intro n
  induction n with
  | zero => intro s; exact .of_eq rfl
  | succ n ih =>
    intro s
    have := ih s
    simp only [Kernel.closeWhere]
    split
    · rename_i e; rw [e] at this; exact this
    · rename_i e
      rw [e] at this
      split
      · exact this
      · split
        · exact this
        · split
          · exact this.trans (.closeSlot _ _ _ _)
          · exact this

theorem forkCopy_slots (t : Table) (ch : Nat) : ∀ n s s', forkCopy t ch n s = some s' →
    ∀ fd d', slot s' ch fd = some d' → slot s ch fd = some d' ∨ t fd = some d' := by
  intro n
  induction n with
  | zero => intro s s' e fd d' hd; cases e; exact .inl hd
  | succ n ih =>
    intro s s' e fd d' hd
    simp only [forkCopy] at e
    split at e
    · cases e
    · rename_i s1 e1
      split at e
      · cases e; exact ih _ _ e1 fd d' hd
      · rename_i d ht
        split at e
        · cases e
        · rename_i s2 e2
          cases e
          rcases slot_setFd hd with ⟨rfl, h'⟩ | h'
          · cases h'; exact .inr ht
          · refine ih _ _ e1 fd d' ?_
            simpa only [slot, (bump_same e2).cages] using h'

/-- The descriptors a call makes out of nothing. -/
def Made (s : State) (c : Nat) (op : Op) (fd : Nat) (d' : Desc) : Prop :=
  match op, d' with
  | .openP _ _ _, .file _ _ _ => (step s c op).2.ret = .ok fd
  | .pipe2 _, .pipe id f => id = s.npipe ∧ s.npipe < (step s c op).1.npipe ∧ (f &&& 3#32 = 0#32 ∨ f &&& 3#32 = 1#32)
  | .socket _ _, .sock _ => True
  | .epollCreate _, .epoll _ => True
  | _, _ => False

theorem keep_bits (a f : BitVec 32) :
    ((a &&& ~~~(oRDWRFLAGS ||| oCREAT ||| oEXCL ||| oNOCTTY ||| oTRUNC)) ||| (f &&& (oRDWRFLAGS ||| oCREAT ||| oEXCL ||| oNOCTTY ||| oTRUNC))) &&& 3#32 =
      f &&& 3#32 := by
  rw [BitVec.and_or_distrib_right, BitVec.and_assoc, BitVec.and_assoc,
    (by decide : ~~~(oRDWRFLAGS ||| oCREAT ||| oEXCL ||| oNOCTTY ||| oTRUNC) &&& 3#32 = 0#32),
    (by decide : (oRDWRFLAGS ||| oCREAT ||| oEXCL ||| oNOCTTY ||| oTRUNC) &&& 3#32 = 3#32)]
  simp

theorem or_cloexec (f : BitVec 32) : (f ||| oCLOEXEC) &&& 3#32 = f &&& 3#32 := by
  rw [BitVec.and_or_distrib_right, (by decide : oCLOEXEC &&& 3#32 = 0#32)]; simp

theorem new_bits (b fl : BitVec 32) : (b ||| (fl &&& (oCLOEXEC ||| oNONBLOCK))) &&& 3#32 = b &&& 3#32 := by
  rw [BitVec.and_or_distrib_right, BitVec.and_assoc, (by decide : (oCLOEXEC ||| oNONBLOCK) &&& 3#32 = 0#32)]; simp

/-- The caller's own descriptors after a call. -/
theorem own_origin {s : State} {c fd : Nat} {op : Op} {d' : Desc} (h : slot (step s c op).1 c fd = some d') :
    (∃ fd0 d, slot s c fd0 = some d ∧ SameObject d d') ∨ Made s c op fd d' ∨ op = .fork c := by
  cases hc : s.cages c with
  | none => left; simp only [step, hc] at h; exact ⟨fd, d', h, same_refl _⟩
  | some cg =>
    have key : (∀ X : State, Old s c X → slot X c fd = some d' → ∃ fd0 d, slot s c fd0 = some d ∧ SameObject d d') :=
      fun X hX hs => hX fd d' hs
    cases op <;> simp only [step, hc] at h
    case fork ch =>
      by_cases hch : ch = c
      · subst hch; right; right; rfl
      · left
        have he : (fork s c cg ch).1.cages c = s.cages c := by
          unfold fork
          split
          · rfl
          · split
            · rfl
            · rename_i s1 e1
              have := forkCopy_frame _ (Ne.symm hch) _ _ _ e1
              simp only [State.setCage, upd_ne _ _ (Ne.symm hch)] at this
              (repeat' split) <;> first | rfl | exact this
        refine ⟨fd, d', ?_, same_refl _⟩
        simpa only [slot, he] using h
    case exec ch =>
      left
      have hO := Old.closeWhere (fun d => d.flags &&& oCLOEXEC != 0) c maxFd s
      unfold exec at h
      split at h
      · exact ⟨fd, d', h, same_refl _⟩
      · split at h
        · rename_i e; rw [e] at hO; exact hO fd d' h
        · rename_i e
          rw [e] at hO
          split at h
          · exact hO fd d' h
          · rename_i cg' hcg'
            by_cases hch : ch = c
            · subst hch
              simp only [slot, State.setCage, upd_apply, if_true] at h
              exact hO fd d' (by rw [slot_eq hcg']; exact h)
            · simp [slot, State.setCage, upd_apply, Ne.symm hch] at h
    case exit st =>
      left
      have hO := Old.closeWhere (fun _ => true) c maxFd s
      unfold exit at h
      split at h
      · rename_i e; rw [e] at hO; exact hO fd d' h
      · simp [slot, State.setCage, upd_apply] at h
    case dup2 o n => left; exact Old.dup2 hc o n fd d' h
    case pipe2 fl =>
      unfold pipe2 at h
      split at h
      · left; exact ⟨fd, d', h, same_refl _⟩
      · rename_i r hr
        have hnp : s.npipe < (step s c (.pipe2 fl)).1.npipe := by
          simp only [step, hc, pipe2, hr]
          split <;> simp only [setFd_npipe'] <;> omega
        simp only at h
        have h1 : ∀ n f (s1 : State), s1.cages = s.cages → slot (s1.setFd c n (some (.pipe s.npipe f))) c fd = some d' →
            (d' = .pipe s.npipe f ∨ slot s c fd = some d') := by
          intro n f s1 e1 hs
          rcases slot_setFd hs with ⟨-, h'⟩ | h'
          · cases h'; exact .inl rfl
          · right; simpa only [slot, e1] using h'
        split at h
        · rcases h1 _ _ _ (by exact rfl) h with rfl | h'
          · right; left; exact ⟨rfl, hnp, .inl (new_bits _ _)⟩
          · left; exact ⟨fd, d', h', same_refl _⟩
        · rcases slot_setFd h with ⟨-, h'⟩ | h'
          · cases h'; right; left; exact ⟨rfl, hnp, .inr (new_bits _ _)⟩
          · rcases h1 _ _ _ (by exact rfl) h' with rfl | h''
            · right; left; exact ⟨rfl, hnp, .inl (new_bits _ _)⟩
            · left; exact ⟨fd, d', h'', same_refl _⟩
    case openP p fl m =>
      unfold openSys at h
      split at h
      · left; exact ⟨fd, d', h, same_refl _⟩
      rename_i hp
      split at h
      · left; exact ⟨fd, d', h, same_refl _⟩
      rename_i n hn
      split at h
      · left; exact ⟨fd, d', h, same_refl _⟩
      rename_i fs i size ho
      rcases slot_setFd h with ⟨rfl, h'⟩ | h'
      · cases h'; right; left
        simp [Made, newDesc, step, hc, openSys, hp, hn, ho, Out.r]
      · left; exact ⟨fd, d', h', same_refl _⟩
    case socket nb ce =>
      unfold putNew at h
      split at h
      · left; exact ⟨fd, d', h, same_refl _⟩
      · rcases slot_setFd h with ⟨-, h'⟩ | h'
        · cases h'; right; left; simp [Made]
        · left; exact ⟨fd, d', h', same_refl _⟩
    case epollCreate n =>
      unfold putNew at h
      (repeat' split at h)
      all_goals first
        | (left; exact ⟨fd, d', h, same_refl _⟩)
        | (rcases slot_setFd h with ⟨-, h'⟩ | h'
           · cases h'; right; left; simp [Made]
           · left; exact ⟨fd, d', h', same_refl _⟩)
    all_goals left; revert h; apply key
    case fcntl f cmd arg =>
      unfold fcntl
      split
      · exact .of_eq rfl
      · exact .of_eq rfl
      · rename_i d hd
        have h0 := slot_getFd hc hd
        simp only
        (repeat' split) <;> first
          | exact .of_eq rfl
          | exact .dupFrom cg h0 _
          | exact .set rfl h0 (same_cloexec d)
          | exact .set rfl h0 (same_setFlags d _ (or_cloexec _))
          | exact .set rfl h0 (same_setFlags d _ (keep_bits _ _))
    case dup f =>
      unfold dup
      (repeat' split) <;> first | exact .of_eq rfl | exact .dupFrom cg (slot_getFd hc ‹_›) _
    case close f =>
      unfold close
      split
      · exact .of_eq rfl
      · exact .closeSlot _ _ _ _
    all_goals
      (try simp only [nonEmpty, State.onFs, Kernel.fchmod, Kernel.ftruncate, Kernel.chdir, Kernel.fchdir, Kernel.read, Kernel.pread, Kernel.write, Kernel.pwrite,
        Kernel.writev, Kernel.lseek, Kernel.getdents])
    all_goals
      (repeat' split) <;> first
        | exact .of_eq rfl
        | exact .setCwd hc _
        | exact .set rfl (slot_getFd hc ‹_›) (by simp [SameObject])
        | skip

end Verif.Confine
