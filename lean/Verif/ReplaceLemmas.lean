import Verif.Replace

/-! # Lemmas for C103, and `rename` to a name that is in use -/

namespace Verif.Kernel
open Verif.Fs Verif.Path

/-- The way down to a directory stays the only one, whatever that directory contains. -/
theorem walk_back {ino ino' : Nat → Option Inode} {next : Nat} (T : Tree ino next) {d e a : Nat} {ns : List Name} {nd : Inode}
    (hw : Walk ino d ns e) (hns : ∀ n ∈ ns, Proper n) (he : ino e = some nd) (hd : nd.isDir)
    (hsame : ∀ x, x ≠ e → ino' x = ino x) (hw' : Walk ino' d ns a) : a = e := by
  induction hw with
  | here => cases hw'; rfl
  | down x b c w ih =>
    have hlt := (walk_le T (.down x b c w) hns he hd).2 (by simp)
    cases hw' with
    | down x' b' c' w' =>
      rw [hsame _ (by omega), x] at x'; cases x'
      have := (entGet_iff (T.nodup x)).2 c
      rw [(entGet_iff (T.nodup x)).2 c'] at this
      cases this
      exact ih (fun n hn => hns n (by simp [hn])) he hsame w'

/-- Changing an object that is not a directory changes no way. -/
theorem walk_around {ino ino' : Nat → Option Inode} {j : Nat} {jd : Inode} (hj : ino j = some jd) (hd : jd.isDir = false)
    (hsame : ∀ x, x ≠ j → ino' x = ino x) {d e : Nat} {ns : List Name} (hw : Walk ino d ns e) : Walk ino' d ns e := by
  induction hw with
  | here => exact .here _
  | down a b c w ih =>
    refine .down ?_ b c ih
    rw [hsame _ ?_]; exact a
    rintro rfl
    rw [hj] at a; cases a
    rw [hd] at b; exact nomatch b

theorem rename_over_inv {s : State} (h : Inv s []) {c : Nat} {cg : Cage} (hc : s.cages c = some cg) {old new : Str}
    (hne1 : old ≠ []) (hne2 : new ≠ []) {i k : Nat} (hi : Leads s cg old i) (hk : Leads s cg new k) {ps : List Name} {o n : Name}
    (ho : cg.path old = ps ++ [o]) (hn : cg.path new = ps ++ [n]) (hon : o ≠ n) :
    let s' := (step s c (.rename old new)).1
    (step s c (.rename old new)).2.ret = .ok 0 ∧ Leads s' cg new i ∧ (∀ j, ¬ Leads s' cg old j) ∧
    (∃ d, Walk s.fs.inodes rootIno ps d ∧ (∀ m j, Entry s' d m j ↔ (m = n ∧ j = i) ∨ (m ≠ o ∧ m ≠ n ∧ Entry s d m j)) ∧
      (∀ x m j, x ≠ d → (Entry s' x m j ↔ Entry s x m j))) ∧
    (∀ j, SameObj s s' j ∧ (s'.fs.inodes j).map Inode.link = (s.fs.inodes j).map Inode.link) ∧ s'.cages = s.cages ∧ s'.pipes = s.pipes := by
  have T := h.fs.tree
  obtain ⟨r, hr, hlook⟩ := h.walk_found hc hi
  obtain ⟨r2, hr2, hlook2⟩ := h.walk_found hc hk
  have hgo := h.gp hc old
  cases hlook with
  | root e => rw [ho] at e; simp at e
  | found heq w w' hpar hd hl hf hg hi0 h1 h7 hne =>
    rename_i par ps' o' pd nd
    rw [heq] at ho
    have e1 := List.append_inj' ho rfl
    obtain ⟨rfl, e1⟩ := e1
    cases e1
    cases hlook2 with
    | root e => rw [hn] at e; simp at e
    | found heq2 w2 w2' hpar2 hd2 hl2 hf2 hg2 hi2 h12 h72 hne2' =>
      rename_i par2 ps2 n' pd2 nd2
      rw [heq2] at hn
      obtain ⟨rfl, e2⟩ := List.append_inj' hn rfl
      cases e2
      have ed : par2 = par := walk_fun T w2 w
      subst ed
      have := Option.some.inj (hpar.symm.trans hpar2); subst this
      rw [heq] at hr hgo
      rw [heq2] at hr2
      obtain ⟨fs', q, q1, q2, q3, q4⟩ := rename_eq hr hr2 hpar hd
      simp only [step, hc, nonEmpty, hne1, hne2, if_false, State.onFs, Leads, heq, heq2]
      rw [q]
      have hsame : ∀ x, x ≠ par2 → fs'.inodes x = s.fs.inodes x := fun x e => by rw [q4, upd_ne _ _ e]
      have hp2 : fs'.inodes par2 = some { pd with ents := entDel (entPut pd.ents n i) o } := by rw [q4, upd_same]
      have hpp : ∀ m ∈ ps2, Proper m := fun m hm => Good.proper (hgo m (by simp [hm]))
      have wn : Walk fs'.inodes rootIno ps2 par2 := walk_avoid T w hpp hpar hd hsame
      have hent : ∀ k j, (k, j) ∈ entDel (entPut pd.ents n i) o ↔ (k = n ∧ j = i) ∨ (k ≠ o ∧ k ≠ n ∧ (k, j) ∈ pd.ents) := by
        intro k j
        rw [mem_entDel, mem_entPut]
        constructor
        · rintro ⟨⟨rfl, rfl⟩ | ⟨a, b⟩, c⟩
          · exact .inl ⟨rfl, rfl⟩
          · exact .inr ⟨c, b, a⟩
        · rintro (⟨rfl, rfl⟩ | ⟨a, b, c⟩)
          · exact ⟨.inl ⟨rfl, rfl⟩, hon.symm⟩
          · exact ⟨.inr ⟨c, b⟩, a⟩
      refine ⟨rfl, ?_, ?_, ⟨par2, w, ?_, ?_⟩, ?_, trivial, trivial⟩
      · exact wn.snoc hp2 hd ((hent n i).2 (.inl ⟨rfl, rfl⟩))
      · intro j hj
        obtain ⟨a, na, w3, h3, h4, h5⟩ := hj.split
        have := walk_back T w hpp hpar hd hsame w3; subst this
        rw [hp2] at h3; cases h3
        rcases (hent o j).1 h5 with ⟨e, -⟩ | ⟨e, -⟩
        · exact hon e
        · exact e rfl
      · intro k j
        rw [entry_iff (s := { s with fs := fs' }) hp2, entry_iff hpar]
        exact hent k j
      · intro x k j hx
        simp only [Entry, entries, hsame x hx]
      · intro j
        by_cases ej : j = par2
        · subst ej
          refine ⟨⟨?_, by simp only [bytes, q1]⟩, ?_⟩
          · intro x hx; rw [hpar] at hx; cases hx; exact ⟨_, hp2, rfl, rfl, rfl⟩
          · simp only [hp2, hpar, Option.map_some]
        · simp only [SameObj, hsame j ej, bytes, q1, and_true]
          intro x hx; exact ⟨x, hx, rfl, rfl, rfl⟩

/-- C24, C103.  **Renaming over a name that is in use**, in the same directory: it succeeds, the name then leads to the renamed object and the old name to
nothing, and no other name of any directory changes, nor any attribute or content, nor any descriptor.  Partial: the object that had the name should lose
a link, and the directory one entry of its count (`rename_overwrite_violated`). -/
theorem rename_over_partial {s : State} (h : Reach s) {c : Nat} {cg : Cage} (hc : s.cages c = some cg) {old new : Str}
    (hne1 : old ≠ []) (hne2 : new ≠ []) {i k : Nat} (hi : Leads s cg old i) (hk : Leads s cg new k) {ps : List Name} {o n : Name}
    (ho : cg.path old = ps ++ [o]) (hn : cg.path new = ps ++ [n]) (hon : o ≠ n) :
    let s' := (step s c (.rename old new)).1
    (step s c (.rename old new)).2.ret = .ok 0 ∧ Leads s' cg new i ∧ (∀ j, ¬ Leads s' cg old j) ∧
    (∃ d, Walk s.fs.inodes rootIno ps d ∧ (∀ m j, Entry s' d m j ↔ (m = n ∧ j = i) ∨ (m ≠ o ∧ m ≠ n ∧ Entry s d m j)) ∧
      (∀ x m j, x ≠ d → (Entry s' x m j ↔ Entry s x m j))) ∧
    (∀ j, SameObj s s' j ∧ (s'.fs.inodes j).map Inode.link = (s.fs.inodes j).map Inode.link) ∧ s'.cages = s.cages ∧ s'.pipes = s.pipes :=
  rename_over_inv h.inv hc hne1 hne2 hi hk ho hn hon

end Verif.Kernel

namespace Verif.Replace
open Verif.Fs Verif.Kernel Verif.Path Verif.Pipeline

/-- What holds while the program writes. -/
structure Ok (P : Plan) (i j : Nat) (f : BitVec 32) (O D : List UInt8) (x : Conf) : Prop where
  reach : Reach x.s
  ne : i ≠ j
  fd : OpenOn x.s P.c P.fd j (bytes x.s j).length f
  wf : f &&& 3#32 ≠ 0#32
  file : IsFile x.s j (bytes x.s j).length
  paths : ∃ cg, x.s.cages P.c = some cg ∧ P.tmp ≠ [] ∧ P.new ≠ [] ∧ cg.path P.tmp = P.T ∧ cg.path P.new = P.N
  dir : ∃ ps o n, P.T = ps ++ [o] ∧ P.N = ps ++ [n]
  tmp : To x.s P.T j
  new : To x.s P.N i
  old : bytes x.s i = O
  sum : bytes x.s j ++ x.left = D

/-- What holds once it has renamed the file. -/
structure Over (P : Plan) (i j : Nat) (O D : List UInt8) (x : Conf) : Prop where
  new : To x.s P.N j
  old : bytes x.s i = O
  all : bytes x.s j = D

theorem Ok.put {P : Plan} {i j : Nat} {f : BitVec 32} {O D : List UInt8} {x : Conf} (h : Ok P i j f O D x) (hd : x.done = false) (n : Nat)
    (hn : n < 2147483648) : Ok P i j f O D (next P x (.put n)) ∧ (next P x (.put n)).done = false := by
  have hl : (x.left.take n).length < 2147483648 := by simp; omega
  obtain ⟨fs', e, hw⟩ := write_file h.reach h.fd h.file h.wf hl
  obtain ⟨cg, hc, hp1, hp2, hp3, hp4⟩ := h.paths
  obtain ⟨hfd, cg0, hc0, hd0⟩ := h.fd
  rw [hc] at hc0; cases hc0
  have hr : Reach (step x.s P.c (.write P.fd (x.left.take n))).1 :=
    Reach.step P.c _ h.reach (tame_write _ _ _ _) (by rw [e]; exact fun a => nomatch a)
  simp only [next, hd, Bool.false_eq_true, if_false]
  rw [e] at hr ⊢
  dsimp only at hr ⊢
  have hfs : (({ x.s with fs := fs' } : State).setFd P.c P.fd (some (.file j ((bytes x.s j).length + (x.left.take n).length) f))).fs = fs' := by
    unfold State.setFd; split <;> rfl
  obtain ⟨b1, b2, b3⟩ := hw _ hfs
  have hlen : (bytes x.s j).length + (x.left.take n).length = (bytes x.s j ++ x.left.take n).length := by simp
  obtain ⟨jd, j1, j2, -⟩ := h.file
  have around : ∀ {p : List Name} {k : Nat}, To x.s p k → Walk fs'.inodes rootIno p k := by
    intro p k hp
    refine walk_around j1 (by simp [Inode.isDir, j2]) (fun y hy => ?_) hp
    have := (b3 y hy).2
    rw [hfs] at this; exact this
  have hc' : (({ x.s with fs := fs' } : State).setFd P.c P.fd (some (.file j ((bytes x.s j).length + (x.left.take n).length) f))).cages P.c =
      some { cg with fds := upd cg.fds P.fd (some (.file j ((bytes x.s j).length + (x.left.take n).length) f)) } := by
    unfold State.setFd; simp only [hc]; simp [State.setCage]
  refine ⟨⟨hr, h.ne, ?_, h.wf, ?_, ?_, h.dir, ?_, ?_, ?_, ?_⟩, by simp⟩
  · dsimp only
    rw [b1, ← hlen]
    exact ⟨hfd, _, hc', by simp⟩
  · dsimp only
    rw [b1, ← hlen]; exact b2
  · exact ⟨_, hc', hp1, hp2, hp3, hp4⟩
  · show Walk _ _ _ _
    dsimp only; rw [hfs]; exact around h.tmp
  · show Walk _ _ _ _
    dsimp only; rw [hfs]; exact around h.new
  · exact (b3 i h.ne).1.trans h.old
  · dsimp only
    rw [b1, Int.toNat_natCast, ← h.sum]
    simp [List.append_assoc]
    by_cases hle : n ≤ x.left.length
    · rw [Nat.min_eq_left hle, List.take_append_drop]
    · rw [Nat.min_eq_right (by omega), List.drop_length, List.append_nil, List.take_of_length_le (by omega)]

theorem Ok.other {P : Plan} {i j : Nat} {f : BitVec 32} {O D : List UInt8} {x : Conf} (h : Ok P i j f O D x) {c : Nat} {op : Op} (ht : Tame x.s c op)
    (hn : (step x.s c op).2.ret ≠ .panic) (k : Kept P i j x.s (step x.s c op).1) : Ok P i j f O D (next P x (.other c op)) := by
  have hr := Reach.step c op h.reach ht hn
  have o2 : OpenOn (step x.s c op).1 P.c P.fd j (bytes x.s j).length f := Kernel.openOn_of_slot h.fd.1 (by rw [k.fd]; exact h.fd.slot)
  obtain ⟨cg, hc, hp1, hp2, hp3, hp4⟩ := h.paths
  obtain ⟨cg', hc', hp5, hp6⟩ := k.cwd cg hc
  refine ⟨hr, h.ne, ?_, h.wf, ?_, ⟨cg', hc', hp1, hp2, hp5.trans hp3, hp6.trans hp4⟩, h.dir, (k.names j).1 h.tmp, (k.names i).2 h.new, k.old.trans h.old, ?_⟩
  · simp only [next]; rw [k.new]; exact o2
  · simp only [next]; rw [k.new]; exact file_kept h.reach hr h.file o2 k.new
  · simp only [next]; rw [k.new]; exact h.sum

theorem Ok.swap {P : Plan} {i j : Nat} {f : BitVec 32} {O D : List UInt8} {x : Conf} (h : Ok P i j f O D x) (hd : x.done = false) (hl : x.left = []) :
    (next P x .swap).done = true ∧ Over P i j O D (next P x .swap) ∧ (∀ k, ¬ To (next P x .swap).s P.T k) ∧ (next P x .swap).s.cages = x.s.cages ∧
      ∀ k, SameObj x.s (next P x .swap).s k := by
  obtain ⟨cg, hc, hp1, hp2, hp3, hp4⟩ := h.paths
  obtain ⟨ps, o, n, hT, hN⟩ := h.dir
  have hon : o ≠ n := by
    rintro rfl
    have h1 := h.tmp
    have h2 := h.new
    rw [hT] at h1; rw [hN] at h2
    exact h.ne (walk_fun h.reach.inv.fs.tree h2 h1)
  have h1 : Leads x.s cg P.tmp j := by unfold Leads; rw [hp3]; exact h.tmp
  have h2 : Leads x.s cg P.new i := by unfold Leads; rw [hp4]; exact h.new
  obtain ⟨r1, r2, r3, -, r4, r5, -⟩ := rename_over_partial h.reach hc hp1 hp2 h1 h2 (hp3.trans hT) (hp4.trans hN) hon
  have hx : next P x .swap = { x with s := (step x.s P.c (.rename P.tmp P.new)).1, done := true } := by
    simp only [next, hd, hl, and_self, if_true, r1, decide_true]
  rw [hx]
  refine ⟨rfl, ⟨?_, ?_, ?_⟩, ?_, r5, fun k => (r4 k).1⟩
  · show Walk _ _ _ _
    rw [← hp4]; exact r2
  · exact (r4 i).1.2.trans h.old
  · have := h.sum
    rw [hl, List.append_nil] at this
    exact (r4 j).1.2.trans this
  · intro k hk
    have hk : Walk _ _ _ _ := hk
    rw [← hp3] at hk
    exact r3 k hk

end Verif.Replace
