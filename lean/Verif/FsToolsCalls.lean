import Verif.FsToolsLemmas

/-! # The calls the tree tools make on a directory: chmod, open, getdents, close; paths of children -/

namespace Verif.FsTools

open Verif.Path Verif.Fs Verif.Kernel

/-! ## Paths of children -/

theorem path_resolve {cg : Cage} (h : CwdOk cg.cwd) : ∃ dir, (∀ n ∈ dir, Good n) ∧
    ∀ p, cg.path p = resolve (if isRelative p then dir else []) (segs p) := by
  obtain ⟨dir, hd, e⟩ := h
  refine ⟨dir, hd, fun p => ?_⟩
  rw [Cage.path, e, normpath_spec dir hd]
  refine names_render ?_
  apply resolve_good
  · split
    · exact hd
    · simp
  · exact seg_noslash p

theorem child_path {cg : Cage} (h : CwdOk cg.cwd) {p : Str} (hp : p ≠ []) {n : Name} (hn : Good n) :
    cg.path (child p n) = cg.path p ++ [n] ∧ child p n ≠ [] := by
  obtain ⟨dir, hd, e⟩ := path_resolve h
  have hone : ∀ D : List Str, resolve D [n] = D ++ [n] := fun D => resolve_names [n] D (by simpa using hn)
  have hrel : isRelative (child p n) = isRelative p := by
    unfold child isRelative
    cases p with
    | nil => exact absurd rfl hp
    | cons a as => split <;> simp
  rw [e, e, hrel]
  generalize (if isRelative p then dir else []) = D
  unfold child
  split
  · rename_i hl
    obtain ⟨p0, rfl⟩ : ∃ p0, p = p0 ++ [slash] := by
      rcases snoc_cases p with h0 | ⟨a, b, h0⟩
      · exact absurd h0 hp
      · subst h0; simp only [List.getLast?_append, List.getLast?_singleton, Option.some_or, Option.some.injEq] at hl
        exact ⟨a, by rw [hl]⟩
    constructor
    · rw [List.append_assoc, List.singleton_append, segs_append, segs_append, segs_noslash n hn.2.1, resolve_append, hone,
        resolve_append]
      congr 1
    · simp
  · constructor
    · rw [segs_append, segs_noslash n hn.2.1, resolve_append, hone]
    · simp [hp]

/-! ## Reading the buffer -/

theorem unle_eq (l : List UInt8) : unle l = Getdents.ofLe l := by
  induction l with
  | nil => rfl
  | cons b bs ih => simp only [unle, Getdents.ofLe, ih]

theorem dents_parse : ∀ (fuel : Nat) (bs : List UInt8) (es : List (Str × Nat)), Getdents.parse fuel bs = some es →
    dents fuel bs = some (es.map (·.1)) := by
  intro fuel
  induction fuel with
  | zero => intro bs es h; cases bs <;> simp_all [Getdents.parse, dents]
  | succ fuel ih =>
    intro bs es h
    cases bs with
    | nil => simp only [Getdents.parse, Option.some.injEq] at h; subst h; rfl
    | cons b bs =>
      simp only [Getdents.parse] at h
      split at h
      · cases h
      · split at h
        · cases h
        · rename_i es' he
          cases h
          simp only [dents, unle_eq, ih _ _ he, Option.map_some, List.map_cons]

theorem fill_all (b : Nat) (es : List (Str × Nat)) : ∀ a, a + (es.map (fun e => Getdents.recLen e.1)).sum ≤ b →
    (Getdents.fill b es a).1.length = es.length := by
  induction es with
  | nil => intro a _; rfl
  | cons e es ih =>
    intro a h
    simp only [List.map_cons, List.sum_cons] at h
    rw [Getdents.fill_cons, if_neg (by omega)]
    simp only [List.length_cons]
    rw [ih _ (by omega)]

/-! ## Free descriptors -/

/-- How many descriptors a table has left. -/
def free (t : Table) : Nat := (List.range maxFd).countP (fun fd => (t fd).isNone)

theorem free_pos {t : Table} (h : 0 < free t) : ∃ fd, fd < maxFd ∧ t fd = none := by
  obtain ⟨fd, h1, h2⟩ := List.countP_pos_iff.1 h
  exact ⟨fd, List.mem_range.1 h1, by simpa using h2⟩

theorem countP_upd (t : Table) (fd : Nat) (d : Desc) (hn : t fd = none) : ∀ k,
    (List.range k).countP (fun x => (t x).isNone) =
      (List.range k).countP (fun x => (upd t fd (some d) x).isNone) + if fd < k then 1 else 0 := by
  intro k
  induction k with
  | zero => simp
  | succ k ih =>
    rw [List.range_succ, List.countP_append, List.countP_append, ih]
    simp only [List.countP_singleton, upd_apply]
    by_cases e : k = fd
    · subst e; simp [hn]
    · have : (fd < k + 1) ↔ fd < k := by omega
      simp only [e, if_false, this]; omega

theorem free_upd {t : Table} {fd : Nat} {d : Desc} (hn : t fd = none) (hfd : fd < maxFd) :
    free t = free (upd t fd (some d)) + 1 := by
  unfold free; rw [countP_upd t fd d hn maxFd, if_pos hfd]

theorem free_swap {t : Table} {fd : Nat} {d d' : Desc} (hn : t fd = some d) : free (upd t fd (some d')) = free t := by
  unfold free
  congr 1
  funext x
  simp only [upd_apply]
  by_cases e : x = fd
  · subst e; simp [hn]
  · simp [e]

/-! ## Calls on a directory -/

theorem call_eq {s s' : State} {c : Nat} {op : Op} {v : Int} (h : step s c op = (s', .r (.ok v))) : call s c op = .done s' := by
  simp only [call, h, Out.r]; rw [if_neg (by simp)]


theorem chmod_dir {s : State} (h : Reach s) {c : Nat} {cg : Cage} (hc : s.cages c = some cg) {p : Str} {i : Nat} {nd : Inode}
    (hi : Leads s cg p i) (hnd : s.fs.inodes i = some nd) (hk : nd.isDir) :
    ∃ s', call s c (.chmod p sIRWXA) = .done s' ∧ s'.cages = s.cages ∧ Reach s' ∧ s'.fs.disk = s.fs.disk ∧
      s'.fs.inodes = upd s.fs.inodes i (some { nd with mode := (nd.mode &&& ~~~sIRWXA) ||| sIRWXA }) := by
  obtain ⟨par, hr, -⟩ := h.inv.walk_found hc hi
  have hns : nd.isSock = false := by
    simp only [Inode.isSock, isDir_iff.1 hk]
  have hst : step s c (.chmod p sIRWXA) =
      ({ s with fs := (s.fs.set i (some { nd with mode := (nd.mode &&& ~~~sIRWXA) ||| sIRWXA })).logIno i }, .r (.ok 0)) := by
    have e : sIRWXA &&& sIRWXA = sIRWXA := by decide
    simp only [step, hc, State.onFs, Fs.chmod, hr, Fs.chmodIno, if_pos e, hnd, hns, Bool.false_eq_true, if_false]
  refine ⟨_, call_eq hst, rfl, ?_, rfl, rfl⟩
  have := Reach.step c (.chmod p sIRWXA) h (by simp only [Tame, hc]) (by rw [hst]; simp [Out.r])
  rw [hst] at this; exact this

theorem open_dir {s : State} (h : Reach s) {c : Nat} {cg : Cage} (hc : s.cages c = some cg) {p : Str} {i : Nat} {nd : Inode}
    (hp : p ≠ []) (hi : Leads s cg p i) (hnd : s.fs.inodes i = some nd) (hk : nd.isDir) (hf : 0 < free cg.fds) :
    ∃ s' fd, step s c (.openP p 0#32 0#32) = (s', .r (.ok (fd : Nat))) ∧ fd < maxFd ∧ cg.fds fd = none ∧
      s'.cages = upd s.cages c (some (cg.withSlot fd (some (.file i 0 0#32)))) ∧ Reach s' ∧ s'.fs.disk = s.fs.disk ∧
      s'.fs.inodes = upd s.fs.inodes i (some { nd with ref := nd.ref + 1 }) := by
  obtain ⟨par, hr, -⟩ := h.inv.walk_found hc hi
  obtain ⟨fd0, h1, h2⟩ := free_pos hf
  cases hn : nextFd cg.fds 0 with
  | none => exact absurd h2 (nextFd_none hn fd0 (Nat.zero_le _) h1)
  | some fd =>
    obtain ⟨-, hlt, hfree, -⟩ := nextFd_some hn
    have hx : ¬ ((0#32 : BitVec 32) &&& (oCREAT ||| oEXCL) = oCREAT ||| oEXCL) := by decide
    have hdesc : newDesc i nd.size 0#32 = .file i 0 0#32 := by
      have a : ¬ ((0#32 : BitVec 32) &&& oAPPEND ≠ 0) := by decide
      have b : (0#32 : BitVec 32) &&& (oRDWRFLAGS ||| oCLOEXEC) = 0#32 := by decide
      simp only [newDesc, if_neg a, b]
    have hst : step s c (.openP p 0#32 0#32) =
        (({ s with fs := s.fs.set i (some { nd with ref := nd.ref + 1 }) } : State).setFd c fd (some (.file i 0 0#32)),
          .r (.ok (fd : Nat))) := by
      simp only [step, hc, openSys, if_neg hp, hn, Fs.openP, hr, Fs.openExisting, if_neg hx, hnd, isDir_iff.1 hk, hdesc]
    refine ⟨_, fd, hst, hlt, hfree, ?_, ?_, ?_, ?_⟩
    · exact setFd_at (by exact hc)
    · have := Reach.step c (.openP p 0#32 0#32) h (by simp only [Tame, hc]) (by rw [hst]; simp [Out.r])
      rw [hst] at this; exact this
    · rw [setFd_fs]; rfl
    · rw [setFd_fs]; rfl

theorem getdents_dir {s : State} (h : Reach s) {c : Nat} {cg : Cage} (hc : s.cages c = some cg) {fd i pos : Nat} {f : BitVec 32}
    {nd : Inode} (hfd : fd < maxFd) (hs : cg.fds fd = some (.file i pos f)) (hnd : s.fs.inodes i = some nd) (hk : nd.isDir)
    {b : Nat} (hb : Getdents.clipped < b) :
    ∃ s', step s c (.getdents fd b) = (s', ⟨.ok (Getdents.fill b (nd.ents.drop pos) 0).2,
        (Getdents.fill b (nd.ents.drop pos) 0).1.flatMap Getdents.Rec.bytes, none, (0, 0)⟩) ∧ Reach s' ∧ s'.fs = s.fs ∧
      s'.cages = upd s.cages c (some (cg.withSlot fd (some (.file i
        (min (pos + (Getdents.fill b (nd.ents.drop pos) 0).1.length) nd.ents.length) f)))) := by
  have hst : step s c (.getdents fd b) = (s.setFd c fd (some (.file i
        (min (pos + (Getdents.fill b (nd.ents.drop pos) 0).1.length) nd.ents.length) f)),
      ⟨.ok (Getdents.fill b (nd.ents.drop pos) 0).2,
        (Getdents.fill b (nd.ents.drop pos) 0).1.flatMap Getdents.Rec.bytes, none, (0, 0)⟩) := by
    simp only [step, hc, getdents, if_neg (show ¬ b ≤ Getdents.clipped by omega), getFd_nat hfd, hs, hnd, hk, if_true,
      Int.toNat_natCast, Getdents.getdents_eq _ _ _ hb]
  refine ⟨_, hst, ?_, setFd_fs _ _ _ _, setFd_at hc⟩
  have := Reach.step c (.getdents fd b) h (by simp only [Tame, hc]) (by rw [hst]; simp)
  rw [hst] at this; exact this

theorem close_dir {s : State} (h : Reach s) {c : Nat} {cg : Cage} (hc : s.cages c = some cg) {fd i pos : Nat} {f : BitVec 32}
    {nd : Inode} (hfd : fd < maxFd) (hs : cg.fds fd = some (.file i pos f)) (hnd : s.fs.inodes i = some nd) (hk : nd.isDir)
    (hl : nd.link ≠ 2) :
    ∃ s', call s c (.close fd) = .done s' ∧ Reach s' ∧ s'.fs.disk = s.fs.disk ∧
      s'.fs.inodes = upd s.fs.inodes i (some { nd with ref := nd.ref - 1 }) ∧
      s'.cages = upd s.cages c (some (cg.withSlot fd none)) := by
  have hfo : s.fs.fobj i = none := by
    have := h.inv.fs.loc i
    rw [hnd] at this
    simp only [LocalAt, isDir_iff.1 hk] at this
    exact this.1
  have hst : step s c (.close fd) =
      (({ s with fs := s.fs.set i (some { nd with ref := nd.ref - 1 }) } : State).setFd c fd none, .r (.ok 0)) := by
    simp only [step, hc, close, getFd_nat hfd, hs, State.closeSlot, State.drop, Fs.closeIno, hnd, isDir_iff.1 hk, hfo,
      Option.isSome_none, Bool.false_eq_true, if_false, hl, false_and, Int.toNat_natCast]
  refine ⟨_, call_eq hst, ?_, ?_, ?_, ?_⟩
  · have := Reach.step c (.close fd) h (by simp only [Tame, hc]) (by rw [hst]; simp [Out.r])
    rw [hst] at this; exact this
  · rw [setFd_fs]; rfl
  · rw [setFd_fs]; rfl
  · exact setFd_at (by exact hc)

end Verif.FsTools
