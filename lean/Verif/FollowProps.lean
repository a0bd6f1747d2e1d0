import Verif.Follow

/-! # A log file with one writer, and those who follow it (property C110) -/

namespace Verif.Follow
open Verif.Fs Verif.Kernel Verif.Path Verif.Pipeline

/-! ## Lemmas -/

/-- What holds all the time; `D` is the content at the start. -/
structure Ok (P : Plan) (D : List UInt8) (pos : Nat) (x : Conf) : Prop where
  reach : Reach x.s
  two : (P.cw, P.fw) ≠ (P.cr, P.fr)
  file : IsFile x.s P.i (bytes x.s P.i).length
  wr : ∃ f, OpenOn x.s P.cw P.fw P.i (bytes x.s P.i).length f ∧ f &&& 3#32 ≠ 0#32
  rd : ∃ f, OpenOn x.s P.cr P.fr P.i (pos + x.got.length) f ∧ f &&& 3#32 ≠ 1#32
  le : pos + x.got.length ≤ (bytes x.s P.i).length
  all : bytes x.s P.i = D ++ x.sent.flatten
  got : x.got = ((bytes x.s P.i).drop pos).take x.got.length

theorem Start.ok {P : Plan} {pos : Nat} {x : Conf} (h : Start P pos x) : Ok P (bytes x.s P.i) pos x := by
  obtain ⟨n, hf⟩ := h.file
  have hl := (h.reach.inv.content hf).2
  exact ⟨h.reach, h.two, by rw [hl]; exact hf, h.wr, by rw [h.got]; exact h.rd, by rw [h.got]; exact h.le, by rw [h.sent]; simp, by rw [h.got]; simp⟩

theorem ideal_bytes {s s' : State} {i : Nat} (h : ideal s' i = ideal s i) : bytes s' i = bytes s i := by
  simp only [ideal, Ideal.mk.injEq] at h
  obtain ⟨h1, h2⟩ := h
  refine List.ext_getElem h2 fun k a b => ?_
  have := congrFun h1 k
  simpa [List.getElem?_eq_getElem a, List.getElem?_eq_getElem b] using this

theorem take_grow (l : List UInt8) (p k n : Nat) : (l.drop p).take k ++ ((l.drop (p + k)).take n) = (l.drop p).take (k + n) := by
  rw [← List.drop_drop, List.take_add]

theorem Ok.put {P : Plan} {D : List UInt8} {pos : Nat} {x : Conf} (h : Ok P D pos x) {d : List UInt8} (hd : d.length < 2147483648) :
    Ok P D pos (next P x (.put d)) ∧ (step x.s P.cw (.write P.fw d)).2.ret = .ok d.length := by
  obtain ⟨f, ho, hm⟩ := h.wr
  obtain ⟨g, hr, hg⟩ := h.rd
  obtain ⟨fs', e, hfs⟩ := write_file h.reach ho h.file hm hd
  have hR : Reach (step x.s P.cw (.write P.fw d)).1 := Reach.step _ _ h.reach (tame_write _ _ _ _) (by rw [e]; simp)
  obtain ⟨cg, hc, hs⟩ := ho.2
  have hsl := fun c k => slot_set (s := { x.s with fs := fs' }) (cg := cg) hc (fd := P.fw) (some (.file P.i ((bytes x.s P.i).length + d.length) f)) c k
  refine ⟨?_, by rw [e]⟩
  simp only [next]
  rw [e] at hR ⊢
  obtain ⟨b1, b2, -⟩ := hfs (({ x.s with fs := fs' } : State).setFd P.cw P.fw (some (.file P.i ((bytes x.s P.i).length + d.length) f))) (setFd_fs ..)
  have hlen : (bytes x.s P.i ++ d).length = (bytes x.s P.i).length + d.length := List.length_append
  refine ⟨hR, h.two, ?_, ⟨f, Pipeline.openOn_of_slot ho.1 ?_, hm⟩, ⟨g, Pipeline.openOn_of_slot hr.1 ?_, hg⟩, ?_, ?_, ?_⟩
  · rw [b1, hlen]; exact b2
  · rw [b1, hlen, hsl]; simp
  · rw [hsl, if_neg (by rintro ⟨a, b⟩; exact h.two (by rw [a, b]))]
    exact hr.slot
  · rw [b1, hlen]; have := h.le; dsimp only; omega
  · rw [b1, h.all]; simp
  · rw [b1]
    have hle := h.le
    rw [List.drop_append_of_le_length (by omega), List.take_append_of_le_length (by simp; omega)]
    exact h.got

theorem Ok.get {P : Plan} {D : List UInt8} {pos : Nat} {x : Conf} (h : Ok P D pos x) {n : Nat} (hn : n < 2147483648) :
    Ok P D pos (next P x (.get n)) ∧ ∃ v, (step x.s P.cr (.read P.fr n)).2.ret = .ok (v : Nat) ∧
      v = min n ((bytes x.s P.i).length - (pos + x.got.length)) ∧ (step x.s P.cr (.read P.fr n)).2.data.length = v := by
  obtain ⟨f, ho, hm⟩ := h.wr
  obtain ⟨g, hr, hg⟩ := h.rd
  have hle := h.le
  have e := read_file h.reach hr h.file hg h.le hn
  have hR : Reach (step x.s P.cr (.read P.fr n)).1 := Reach.step _ _ h.reach (tame_read _ _ _ _) (by rw [e]; simp)
  obtain ⟨cg, hc, hs⟩ := hr.2
  have hsl := fun c k => slot_set (s := x.s) hc (fd := P.fr)
    (some (.file P.i (pos + x.got.length + min n ((bytes x.s P.i).length - (pos + x.got.length))) g)) c k
  have hdl : (((bytes x.s P.i).drop (pos + x.got.length)).take n).length = min n ((bytes x.s P.i).length - (pos + x.got.length)) := by simp
  refine ⟨?_, _, by rw [e], rfl, by rw [e]; exact hdl⟩
  simp only [next]
  rw [e] at hR ⊢
  have hb := bytes_fs (setFd_fs x.s P.cr P.fr
    (some (.file P.i (pos + x.got.length + min n ((bytes x.s P.i).length - (pos + x.got.length))) g))) P.i
  refine ⟨hR, h.two, ?_, ⟨f, Pipeline.openOn_of_slot ho.1 ?_, hm⟩, ⟨g, Pipeline.openOn_of_slot hr.1 ?_, hg⟩, ?_, ?_, ?_⟩
  · dsimp only; rw [hb]; exact isFile_fs (setFd_fs _ _ _ _) h.file
  · dsimp only
    rw [hb, hsl, if_neg (by rintro ⟨a, b⟩; exact h.two (by rw [a, b]))]
    exact ho.slot
  · dsimp only
    rw [hsl, List.length_append, hdl, if_pos ⟨rfl, rfl⟩, Nat.add_assoc]
  · dsimp only; rw [hb, List.length_append, hdl]; omega
  · dsimp only; rw [hb]; exact h.all
  · dsimp only
    rw [hb, List.length_append, ← take_grow, ← h.got]
    congr 1
    rw [List.length_take]
    exact List.take_eq_take_iff.2 (by simp)

theorem slot_kept {s : State} {c k fd : Nat} {op : Op} {d : Desc} (h : slot s k fd = some d) (hk : k ≠ c) (ht : Tame s c op) :
    slot (step s c op).1 k fd = some d := by
  obtain ⟨cg, hc, -⟩ := slot_cage h
  have : (step s c op).1.cages k = s.cages k := by
    cases hcc : s.cages c with
    | none => simp only [step, hcc]
    | some cc =>
      refine cage_isolation hk ?_ ?_
      · rintro rfl; simp only [Tame, hcc] at ht; rw [hc] at ht; cases ht
      · rintro rfl; simp only [Tame, hcc] at ht
        rcases ht with e | e
        · exact hk e
        · rw [hc] at e; cases e
  rw [← h]; simp only [slot, this]

theorem Ok.other {P : Plan} {D : List UInt8} {pos : Nat} {x : Conf} (h : Ok P D pos x) {c : Nat} {op : Op} (hf : Fair P x (.other c op)) :
    Ok P D pos (next P x (.other c op)) := by
  obtain ⟨ht, hn, he, hw, hr⟩ := hf
  have hR := Reach.step c op h.reach ht hn
  obtain ⟨f, ho, hm⟩ := h.wr
  obtain ⟨g, hrd, hg⟩ := h.rd
  have ow : OpenOn (step x.s c op).1 P.cw P.fw P.i (bytes x.s P.i).length f := by
    refine Pipeline.openOn_of_slot ho.1 ?_
    by_cases e : P.cw = c
    · rw [hw e.symm]; exact ho.slot
    · exact slot_kept ho.slot e ht
  have or : OpenOn (step x.s c op).1 P.cr P.fr P.i (pos + x.got.length) g := by
    refine Pipeline.openOn_of_slot hrd.1 ?_
    by_cases e : P.cr = c
    · rw [hr e.symm]; exact hrd.slot
    · exact slot_kept hrd.slot e ht
  obtain ⟨nd, hx⟩ := StatBuf.open_exists hR ow
  have hb := ideal_bytes ((content_step h.reach (i := P.i) ⟨_, h.file⟩ (by unfold Kernel.Exists; rw [hx]; simp)).2.1 he)
  simp only [next]
  refine ⟨hR, h.two, ?_, ⟨f, by dsimp only; rw [hb]; exact ow, hm⟩, ⟨g, or, hg⟩, by dsimp only; rw [hb]; exact h.le, by dsimp only; rw [hb]; exact h.all,
    by dsimp only; rw [hb]; exact h.got⟩
  dsimp only; rw [hb]; exact file_kept h.reach hR h.file ow hb

theorem Ok.next {P : Plan} {D : List UInt8} {pos : Nat} {x : Conf} (h : Ok P D pos x) {m : Move} (hm : Fair P x m) : Ok P D pos (next P x m) := by
  cases m with
  | put d => exact (h.put hm).1
  | get n => exact (h.get hm).1
  | other c op => exact h.other hm

theorem Runs.ok {P : Plan} {D : List UInt8} {pos : Nat} {x y : Conf} {ms : List Move} (hr : Runs P x ms y) (h : Ok P D pos x) : Ok P D pos y := by
  induction hr with
  | nil => exact h
  | cons hm _ ih => exact ih (h.next hm)

/-! ## Theorems -/

/-- C110.  At every moment of every run the file is what it was followed by the records in the order in which they were written, each of them whole; and
what the follower has been given is the part of it from where the follower started, without a gap, a repetition or a byte that was not written. -/
theorem follow_exact_partial {P : Plan} {pos : Nat} {x y : Conf} {ms : List Move} (h : Start P pos x) (hr : Runs P x ms y) :
    bytes y.s P.i = bytes x.s P.i ++ y.sent.flatten ∧ y.got <+: (bytes y.s P.i).drop pos := by
  have := hr.ok h.ok
  exact ⟨this.all, by rw [this.got]; exact List.take_prefix _ _⟩

/-- C110.  Every record is taken whole: the call says so. -/
theorem follow_written_partial {P : Plan} {pos : Nat} {x y : Conf} {ms : List Move} (h : Start P pos x) (hr : Runs P x ms y) {d : List UInt8}
    (hd : d.length < 2147483648) : (step y.s P.cw (.write P.fw d)).2.ret = .ok d.length :=
  ((hr.ok h.ok).put hd).2

/-- C110.  The follower is never kept waiting and never told of an end too early: a read of `n > 0` bytes is answered by at least one if there is one that
the follower has not got, and by 0 exactly if the follower has everything. -/
theorem follow_caught_up_partial {P : Plan} {pos : Nat} {x y : Conf} {ms : List Move} (h : Start P pos x) (hr : Runs P x ms y) {n : Nat}
    (h0 : 0 < n) (hn : n < 2147483648) : ∃ v : Nat, (step y.s P.cr (.read P.fr n)).2.ret = .ok v ∧ v ≤ n ∧
      (v = 0 ↔ y.got = (bytes y.s P.i).drop pos) := by
  have k := hr.ok h.ok
  obtain ⟨-, v, e, hv, -⟩ := k.get hn
  have hle := k.le
  refine ⟨v, e, by omega, ?_⟩
  constructor
  · intro e0
    rw [k.got, List.take_of_length_le]
    simp; omega
  · intro e0
    have := congrArg List.length e0
    simp at this
    omega

/-- C110.  How a writer gets to the end: opening a regular file with O_APPEND (and without O_EXCL and O_TRUNC) gives a descriptor at its end, and changes
nothing in it. -/
theorem append_open {s : State} (h : Reach s) {c : Nat} {cg : Cage} (hc : s.cages c = some cg) {p : Str} {i n : Nat}
    (hp : p ≠ []) (hi : Leads s cg p i) (hf : IsFile s i n) {flags : BitVec 32} (mode : BitVec 32) (hx : flags &&& 0o200#32 = 0#32)
    (ht : flags &&& 0o1000#32 = 0#32) (ha : flags &&& 0o2000#32 ≠ 0#32) {fd : Nat} (hfd : fd < 1024 ∧ cg.fds fd = none ∧ ∀ k < fd, cg.fds k ≠ none) :
    let r := step s c (.openP p flags mode)
    r.2 = { ret := .ok fd } ∧ Reach r.1 ∧ OpenOn r.1 c fd i (bytes s i).length (flags &&& 0o2000003#32) ∧ IsFile r.1 i n ∧ bytes r.1 i = bytes s i ∧
      r.1.cages = upd s.cages c (some { cg with fds := upd cg.fds fd (some (.file i (bytes s i).length (flags &&& 0o2000003#32))) }) := by
  obtain ⟨hb, hl⟩ := h.inv.content hf
  obtain ⟨nd, hnd, hk, hsz⟩ := hf
  obtain ⟨par, hw, -⟩ := h.inv.walk_found hc hi
  have hn : nextFd cg.fds 0 = some fd := by
    cases e : nextFd cg.fds 0 with
    | none => exact absurd hfd.2.1 (nextFd_none e fd (Nat.zero_le _) hfd.1)
    | some k =>
      obtain ⟨-, k2, k3, k4⟩ := nextFd_some e
      rcases Nat.lt_trichotomy k fd with g | g | g
      · exact absurd k3 (hfd.2.2 k g)
      · rw [g]
      · exact absurd hfd.2.1 (k4 fd (Nat.zero_le _) g)
  have hR := Reach.step c (.openP p flags mode) h (by simp only [Tame, hc])
  intro r
  have hr : r = step s c (.openP p flags mode) := rfl
  rw [← hr] at hR
  simp only [step, hc, openSys, if_neg hp, hn, Fs.openP, hw, Fs.openExisting, if_neg (excl_clear flags hx), hnd, hk,
    if_neg (fun e => (trunc_bit flags).1 e ht)] at hr
  have e1 : r.1.fs.inodes = upd s.fs.inodes i (some { nd with ref := nd.ref + 1 }) := by
    rw [hr, setFd_fs]
    simp only [Fs.set, Fs.openObj]
    cases s.fs.fobj i <;> simp only [hk]
  have e2 : r.1.fs.disk = s.fs.disk := by
    rw [hr, setFd_fs]
    simp only [Fs.set, Fs.openObj]
    cases s.fs.fobj i with
    | some _ => rfl
    | none => simp only [hb, Option.getD_some]; rw [← hb, upd_self]
  have e3 : r.1.cages = upd s.cages c (some { cg with fds := upd cg.fds fd (some (.file i (bytes s i).length (flags &&& 0o2000003#32))) }) := by
    rw [hr]
    have key : ∀ F : Fs, (({ s with fs := F } : State).setFd c fd (some (newDesc i nd.size flags))).cages =
        upd s.cages c (some (cg.withSlot fd (some (newDesc i nd.size flags)))) := fun F => setFd_at (s := { s with fs := F }) hc
    refine (key _).trans ?_
    have : newDesc i nd.size flags = .file i (bytes s i).length (flags &&& 0o2000003#32) := by
      simp only [newDesc, if_pos (show flags &&& oAPPEND ≠ 0 from ha), hl, hsz]; rfl
    rw [this]; rfl
  have e4 : r.2 = { ret := .ok fd } := by rw [hr]; rfl
  refine ⟨e4, hR (by rw [e4]; simp), ⟨hfd.1, _, by rw [e3, upd_same], upd_same ..⟩, ⟨{ nd with ref := nd.ref + 1 }, by rw [e1, upd_same], hk, hsz⟩, by simp only [bytes, e2], e3⟩

end Verif.Follow
