import Verif.LockedAppend

/-! # Several processes append to one file under a lock file (property C111) -/

namespace Verif.LockedAppend
open Verif.Fs Verif.Kernel Verif.Path
open Verif.Follow (slot_kept ideal_bytes)
open Verif.Pipeline (slot_cage)

/-! ## Lemmas -/

/-- What holds all the time; `D` is the content at the start. -/
structure Ok (P : Plan) (D : List UInt8) (y : Conf) : Prop where
  lock : LockFile.Ok P.lock y.x
  any : P.writers ≠ []
  file : IsFile y.x.s P.i (bytes y.x.s P.i).length
  wr : ∀ c ∈ P.writers, ∃ pos f, OpenOn y.x.s c (P.fd c) P.i pos f ∧ f &&& 3#32 ≠ 0#32 ∧ (y.atEnd c = true → pos = (bytes y.x.s P.i).length)
  held : ∀ c, y.atEnd c = true → c ∈ y.x.holders
  all : bytes y.x.s P.i = D ++ (y.sent.map (·.2)).flatten

theorem Start.ok {P : Plan} {y : Conf} (h : Start P y) : Ok P (bytes y.x.s P.i) y := by
  obtain ⟨n, hf⟩ := h.file
  have hl := (h.lock.reach.inv.content hf).2
  refine ⟨h.lock.ok, h.any, by rw [hl]; exact hf, ?_, ?_, by rw [h.sent]; simp⟩
  · intro c hc
    obtain ⟨pos, f, a, b⟩ := h.wr c hc
    exact ⟨pos, f, a, b, fun e => by rw [h.atEnd c] at e; cases e⟩
  · intro c e; rw [h.atEnd c] at e; cases e

theorem one_holder {N : List Name} {x : LockFile.Conf} (h : LockFile.Ok N x) {c d : Nat} (hc : c ∈ x.holders) (hd : d ∈ x.holders) : d = c := by
  rcases h.one with ⟨e, -⟩ | ⟨k, e, -⟩
  · rw [e] at hc; cases hc
  · rw [e] at hc hd; simp at hc hd; rw [hc, hd]

/-- A call that does not change the file and keeps the writers' descriptors. -/
theorem Ok.frame {P : Plan} {D : List UInt8} {y : Conf} (h : Ok P D y) {c : Nat} {op : Op} (ht : Tame y.x.s c op)
    (hR : Reach (step y.x.s c op).1) (he : ∀ e, ¬ Edits y.x.s c P.i op e)
    (hs : c ∈ P.writers → slot (step y.x.s c op).1 c (P.fd c) = slot y.x.s c (P.fd c)) :
    bytes (step y.x.s c op).1 P.i = bytes y.x.s P.i ∧ IsFile (step y.x.s c op).1 P.i (bytes y.x.s P.i).length ∧
      ∀ k ∈ P.writers, ∀ pos f, OpenOn y.x.s k (P.fd k) P.i pos f → OpenOn (step y.x.s c op).1 k (P.fd k) P.i pos f := by
  have hk : ∀ k ∈ P.writers, ∀ pos f, OpenOn y.x.s k (P.fd k) P.i pos f → OpenOn (step y.x.s c op).1 k (P.fd k) P.i pos f := by
    intro k hk pos f ho
    refine Pipeline.openOn_of_slot ho.1 ?_
    by_cases e : k = c
    · subst e; rw [hs hk]; exact ho.slot
    · exact slot_kept ho.slot e ht
  obtain ⟨w, hw⟩ : ∃ w, w ∈ P.writers := List.exists_mem_of_ne_nil _ h.any
  obtain ⟨pos, f, ho, -⟩ := h.wr w hw
  have ho' := hk w hw pos f ho
  obtain ⟨nd, hx⟩ := StatBuf.open_exists hR ho'
  have hb := ideal_bytes ((content_step h.lock.reach (i := P.i) ⟨_, h.file⟩ (by unfold Kernel.Exists; rw [hx]; simp)).2.1 he)
  exact ⟨hb, Pipeline.file_kept h.lock.reach hR h.file ho' hb, hk⟩

/-- The same, put together. -/
theorem Ok.framed {P : Plan} {D : List UInt8} {y : Conf} (h : Ok P D y) {c : Nat} {op : Op} (ht : Tame y.x.s c op)
    (he : ∀ e, ¬ Edits y.x.s c P.i op e) (hs : c ∈ P.writers → slot (step y.x.s c op).1 c (P.fd c) = slot y.x.s c (P.fd c))
    {x' : LockFile.Conf} (hx : x'.s = (step y.x.s c op).1) (hl : LockFile.Ok P.lock x') {g : Nat → Bool}
    (hg : ∀ k, g k = true → y.atEnd k = true ∧ k ∈ x'.holders) : Ok P D { x := x', atEnd := g, sent := y.sent } := by
  obtain ⟨b, f, k⟩ := h.frame ht (hx ▸ hl.reach) he hs
  refine ⟨hl, h.any, ?_, ?_, fun k hk => (hg k hk).2, ?_⟩
  · dsimp only; rw [hx, b]; exact f
  · intro w hw
    obtain ⟨pos, fl, o, m, e⟩ := h.wr w hw
    refine ⟨pos, fl, ?_, m, fun q => ?_⟩
    · dsimp only; rw [hx]; exact k w hw pos fl o
    · dsimp only; rw [hx, b]; exact e (hg w q).1
  · dsimp only; rw [hx, b]; exact h.all

/-- Opening keeps what is open. -/
theorem open_slot {s : State} {c k : Nat} {p : Str} {flags mode : BitVec 32} {d : Desc} (h : slot s c k = some d) :
    slot (step s c (.openP p flags mode)).1 c k = some d := by
  obtain ⟨cg, hc, hk⟩ := slot_cage h
  simp only [step, hc, openSys]
  split
  · exact h
  · cases hn : nextFd cg.fds 0 with
    | none => exact h
    | some fd =>
      obtain ⟨-, -, hfree, -⟩ := Kernel.nextFd_some hn
      dsimp only
      split
      · exact h
      · rename_i fs i size _
        have := Pipeline.slot_set (s := { s with fs := fs }) (cg := cg) hc (fd := fd) (some (newDesc i size flags)) c k
        refine this.trans ?_
        rw [if_neg (by rintro ⟨-, e⟩; rw [e] at hk; rw [hk] at hfree; cases hfree)]
        exact h

theorem unlink_slot {s : State} {c k : Nat} {p : Str} : slot (step s c (.unlink p)).1 c k = slot s c k := by
  cases hc : s.cages c with
  | none => simp only [step, hc]
  | some cg =>
    simp only [step, hc, nonEmpty]
    split <;> rfl

theorem Ok.take {P : Plan} {D : List UInt8} {y : Conf} (h : Ok P D y) {c : Nat} {p : Str} {flags mode : BitVec 32}
    (hf : Fair P y (.take c p flags mode)) : Ok P D (next P y (.take c p flags mode)) := by
  have hl := LockFile.take_ok h.lock (mode := mode) hf
  obtain ⟨⟨cg, hc, hp⟩, hfl⟩ := hf
  refine h.framed (c := c) (op := .openP p flags mode) (by simp only [Tame, hc]) ?_ ?_ (by simp only [LockFile.next]) hl ?_
  · rintro e (_ | _ | _ | _ | _ | ⟨hc', hi, -, hok⟩)
    rw [hc] at hc'; cases hc'
    have hpe : p ≠ [] := by rintro rfl; simp [step, hc, openSys, Out.r] at hok
    have hfd : ∃ fd, fd < 1024 ∧ cg.fds fd = none := by
      cases hn : nextFd cg.fds 0 with
      | none => simp [step, hc, openSys, hpe, hn, Out.r] at hok
      | some fd => obtain ⟨-, a, b, -⟩ := Kernel.nextFd_some hn; exact ⟨fd, a, b⟩
    rw [open_excl_existing h.lock.reach hc hpe hi hfd hfl] at hok
    cases hok
  · intro hw
    obtain ⟨pos, f, o, -⟩ := h.wr c hw
    rw [o.slot]; exact open_slot o.slot
  · intro k hk
    refine ⟨hk, ?_⟩
    have := h.held k hk
    simp only [LockFile.next]
    split
    · exact List.mem_cons_of_mem _ this
    · exact this

theorem Ok.give {P : Plan} {D : List UInt8} {y : Conf} (h : Ok P D y) {c : Nat} {p : Str}
    (hf : Fair P y (.give c p)) : Ok P D (next P y (.give c p)) := by
  have hl := LockFile.give_ok h.lock hf
  obtain ⟨⟨cg, hc, hp⟩, hw⟩ := hf
  by_cases hm : c ∈ y.x.holders
  · refine h.framed (op := .unlink p) (LockFile.give_tame h.lock.reach hc (by rw [hp]; exact hw)) nofun (fun _ => unlink_slot)
      (by simp only [LockFile.next, if_pos hm]) hl ?_
    intro k hk
    exfalso
    by_cases e : k = c
    · simp [e] at hk
    · rw [if_neg e] at hk
      exact e (one_holder h.lock hm (h.held k hk))
  · have hnx : LockFile.next y.x (.give c p) = y.x := by simp only [LockFile.next, if_neg hm]
    simp only [next, hnx]
    refine ⟨h.lock, h.any, h.file, ?_, ?_, h.all⟩
    · intro w hw
      obtain ⟨pos, f, o, m, e⟩ := h.wr w hw
      refine ⟨pos, f, o, m, fun q => e ?_⟩
      dsimp only at q; split at q
      · cases q
      · exact q
    · intro k q
      dsimp only at q; split at q
      · cases q
      · exact h.held k q

theorem tame_lseek (s : State) (c : Nat) (fd off wh : Int) : Tame s c (.lseek fd off wh) := by
  cases hc : s.cages c <;> simp only [Tame, hc]

theorem takes_io {s : State} {c : Nat} {fd off wh : Int} {d : List UInt8} :
    (∀ q ∈ takes s c (.lseek fd off wh) ++ makes s c (.lseek fd off wh), False) ∧ ∀ q ∈ takes s c (.write fd d) ++ makes s c (.write fd d), False := by
  cases hc : s.cages c <;> simp [takes, makes, hc]

theorem Ok.seek {P : Plan} {D : List UInt8} {y : Conf} (h : Ok P D y) {c : Nat} (hf : c ∈ P.writers) : Ok P D (next P y (.seek c)) := by
  by_cases hm : c ∈ y.x.holders
  · obtain ⟨pos, f, o, m, e⟩ := h.wr c hf
    obtain ⟨s1, s2, -, s4, s5⟩ := lseek_moves_partial (off := 0) (wh := 2) (b := ((bytes y.x.s P.i).length : Int)) o h.file (by simp [seekBase]) (by omega)
    have hl := LockFile.other_ok h.lock (c := c) (op := .lseek (P.fd c) 0 2)
      ⟨tame_lseek _ _ _ _ _, by rw [s2]; simp, fun q hq => (takes_io (d := [])).1 q hq |>.elim⟩
    have hb := Pipeline.bytes_fs s4 P.i
    simp only [next, if_pos hm]
    refine ⟨hl, h.any, ?_, ?_, ?_, ?_⟩
    · simp only [LockFile.next]; rw [hb]; exact Pipeline.isFile_fs s4 h.file
    · intro w hw
      simp only [LockFile.next]
      rw [hb]
      by_cases ew : w = c
      · subst ew
        exact ⟨_, f, s1, m, fun _ => by simp⟩
      · obtain ⟨pos', f', o', m', e'⟩ := h.wr w hw
        refine ⟨pos', f', Pipeline.openOn_of_slot o'.1 ?_, m', fun q => e' (by simpa [ew] using q)⟩
        rw [s5 w _ (by simp [ew])]; exact o'.slot
    · intro k q
      simp only [LockFile.next]
      dsimp only at q; split at q
      · rename_i ek; rw [ek]; exact hm
      · exact h.held k q
    · simp only [LockFile.next]; rw [hb]; exact h.all
  · simp only [next, if_neg hm]; exact h

theorem Ok.written {P : Plan} {D : List UInt8} {y : Conf} (h : Ok P D y) {c : Nat} {d : List UInt8} (hw : c ∈ P.writers) (hd : d.length < 2147483648)
    (hm : y.atEnd c = true) : Ok P D (next P y (.put c d)) ∧ (step y.x.s c (.write (P.fd c) d)).2.ret = .ok d.length := by
  obtain ⟨pos, f, o, m, e⟩ := h.wr c hw
  rw [e hm] at o
  obtain ⟨fs', he, hfs⟩ := Pipeline.write_file h.lock.reach o h.file m hd
  obtain ⟨cg, hc, hs⟩ := o.2
  have hl := LockFile.other_ok h.lock (c := c) (op := .write (P.fd c) d)
    ⟨Pipeline.tame_write _ _ _ _, by rw [he]; simp, fun q hq => (takes_io (off := 0) (wh := 0)).2 q hq |>.elim⟩
  refine ⟨?_, by rw [he]⟩
  simp only [next, if_pos (And.intro (h.held c hm) hm)]
  have hsl := fun c' k => Pipeline.slot_set (s := { y.x.s with fs := fs' }) (cg := cg) hc (fd := P.fd c)
    (some (.file P.i ((bytes y.x.s P.i).length + d.length) f)) c' k
  obtain ⟨b1, b2, -⟩ := hfs (({ y.x.s with fs := fs' } : State).setFd c (P.fd c) (some (.file P.i ((bytes y.x.s P.i).length + d.length) f))) (setFd_fs ..)
  have hlen : (bytes y.x.s P.i ++ d).length = (bytes y.x.s P.i).length + d.length := List.length_append
  refine ⟨hl, h.any, ?_, ?_, h.held, ?_⟩
  · simp only [LockFile.next]; rw [he, b1, hlen]; exact b2
  · intro w hw
    simp only [LockFile.next]
    rw [he, b1, hlen]
    by_cases ew : w = c
    · subst ew
      exact ⟨_, f, Pipeline.openOn_of_slot o.1 (by rw [hsl]; simp), m, fun _ => rfl⟩
    · obtain ⟨pos', f', o', m', -⟩ := h.wr w hw
      refine ⟨pos', f', Pipeline.openOn_of_slot o'.1 ?_, m', fun q => absurd (one_holder h.lock (h.held c hm) (h.held w q)) ew⟩
      rw [hsl, if_neg (fun x => ew x.1)]; exact o'.slot
  · simp only [LockFile.next]; rw [he, b1, h.all]; simp

theorem Ok.next {P : Plan} {D : List UInt8} {y : Conf} (h : Ok P D y) {m : Move} (hm : Fair P y m) : Ok P D (next P y m) := by
  cases m with
  | take c p flags mode => exact h.take hm
  | seek c => exact h.seek hm
  | put c d =>
    by_cases e : c ∈ y.x.holders ∧ y.atEnd c = true
    · exact (h.written hm.1 hm.2 e.2).1
    · simp only [LockedAppend.next, if_neg e]; exact h
  | give c p => exact h.give hm
  | other c op =>
    obtain ⟨hl, he, hs⟩ := hm
    exact h.framed hl.1 he hs rfl (LockFile.other_ok h.lock hl) (fun k hk => ⟨hk, h.held k hk⟩)

theorem Runs.ok {P : Plan} {D : List UInt8} {y z : Conf} {ms : List Move} (hr : Runs P y ms z) (h : Ok P D y) : Ok P D z := by
  induction hr with
  | nil => exact h
  | cons hm _ ih => exact ih (h.next hm)

/-! ## Theorems -/

/-- C111.  However many processes write and in whatever order all calls come, the file is what it was followed by all records, whole and in the order in
which they were written; and only one process at a time has the lock. -/
theorem locked_append_partial {P : Plan} {y z : Conf} {ms : List Move} (h : Start P y) (hr : Runs P y ms z) :
    bytes z.x.s P.i = bytes y.x.s P.i ++ (z.sent.map (·.2)).flatten ∧ z.x.holders.length ≤ 1 := by
  have k := hr.ok h.ok
  refine ⟨k.all, ?_⟩
  rcases k.lock.one with ⟨e, -⟩ | ⟨c, e, -⟩ <;> rw [e] <;> simp

/-- C111.  A writer that has taken the lock and moved to the end writes whole records: the call says so, and the record is in the file. -/
theorem locked_written_partial {P : Plan} {y z : Conf} {ms : List Move} (h : Start P y) (hr : Runs P y ms z) {c : Nat} (hc : c ∈ P.writers)
    (hh : c ∈ z.x.holders) {d : List UInt8} (hd : d.length < 2147483648) :
    let z1 := next P z (.seek c)
    (step z1.x.s c (.write (P.fd c) d)).2.ret = .ok d.length ∧ bytes (next P z1 (.put c d)).x.s P.i = bytes z.x.s P.i ++ d ∧
      (next P z1 (.put c d)).sent = z.sent ++ [(c, d)] := by
  have k := hr.ok h.ok
  intro z1
  have k1 : Ok P _ z1 := k.seek hc
  have he : z1.atEnd c = true := by simp [z1, next, hh]
  have hs : z1.sent = z.sent := by simp [z1, next, hh]
  have hh1 : c ∈ z1.x.holders := k1.held c he
  obtain ⟨k2, r⟩ := k1.written hc hd he
  have hs2 : (next P z1 (.put c d)).sent = z.sent ++ [(c, d)] := by simp [next, hh1, he, hs]
  refine ⟨r, ?_, hs2⟩
  rw [k2.all, hs2, k.all]; simp

/-- C111.  Records written under one hold of the lock stay together: until the holder gives the lock back every record is the holder's. -/
theorem locked_together_partial {P : Plan} {x y z : Conf} {l ms : List Move} (h : Start P x) (hl : Runs P x l y) (hr : Runs P y ms z) {c : Nat}
    (hc : c ∈ y.x.holders) (hg : ∀ m ∈ ms, ¬ GivesBack c m) : c ∈ z.x.holders ∧ ∃ own : List (List UInt8), z.sent = y.sent ++ own.map (fun d => (c, d)) := by
  have k := hl.ok h.ok
  clear h hl
  generalize bytes x.x.s P.i = D at k
  induction hr with
  | nil => exact ⟨hc, [], by simp⟩
  | @cons y z m ms hm hr ih =>
    have k1 := k.next hm
    have hone : ∀ d, d ∈ y.x.holders → d = c := fun d hd => one_holder k.lock hc hd
    have key : c ∈ (next P y m).x.holders ∧ ∃ own : List (List UInt8), (next P y m).sent = y.sent ++ own.map (fun d => (c, d)) := by
      cases m with
      | take a p flags mode =>
        refine ⟨?_, [], by simp [next]⟩
        simp only [next, LockFile.next]
        split
        · exact List.mem_cons_of_mem _ hc
        · exact hc
      | seek a =>
        simp only [next]
        split
        · exact ⟨hc, [], by simp⟩
        · exact ⟨hc, [], by simp⟩
      | put a d =>
        simp only [next]
        split
        · rename_i e
          exact ⟨hc, [d], by rw [hone a e.1]; simp⟩
        · exact ⟨hc, [], by simp⟩
      | give a p =>
        refine ⟨?_, [], by simp [next]⟩
        have : a ≠ c := fun e => hg (.give a p) (by simp) e
        have : a ∉ y.x.holders := fun e => this (hone a e)
        simp only [next, LockFile.next, if_neg this]; exact hc
      | other a op => exact ⟨hc, [], by simp [next]⟩
    obtain ⟨c1, own, e1⟩ := key
    obtain ⟨c2, own2, e2⟩ := ih c1 (fun m hm => hg m (by simp [hm])) k1
    exact ⟨c2, own ++ own2, by rw [e2, e1]; simp⟩

end Verif.LockedAppend
