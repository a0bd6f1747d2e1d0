import Verif.NsWitness
import Verif.HistProps

/-!
# C58: which calls abort the program

A panic unwinds the runtime that all cages share.  `Aborts` lists the calls that do it; `aborts_panic` shows that each of them
does, `never_panics` that in a reachable state no other (tame) call does.
-/

set_option linter.unusedSimpArgs false

namespace Verif.Kernel
open Verif.Fs Verif.Path Verif.Getdents
open Verif.Pipe (Pipe)

/-! ## Specification -/

/-- The descriptor argument of the calls that index the table without a range check. -/
def fdArg : Op → Option Int
  | .fchmod fd _ | .fstat fd | .fchdir fd | .ftruncate fd _ | .read fd _ | .pread fd _ _ | .write fd _ | .pwrite fd _ _
  | .writev fd _ | .lseek fd _ _ | .close fd | .fcntl fd _ _ => some fd
  | _ => none

/-- The calls of cage `c` that abort the program in state `s`. -/
inductive Aborts (s : State) (c : Nat) : Op → Prop
  /-- the caller does not exist -/
  | noCage {op} : s.cages c = none → Aborts s c op
  /-- a descriptor number outside the table -/
  | range {op fd} : fdArg op = some fd → fd < 0 ∨ 1024 ≤ fd → Aborts s c op
  /-- reading at a position beyond the end of a file -/
  | readPast {fd n i pos f size} : OpenOn s c fd i pos f → f &&& 3#32 ≠ 1#32 → IsFile s i size → size < pos →
      Aborts s c (.read fd n)
  | preadOut {fd n off i pos f size} : OpenOn s c fd i pos f → f &&& 3#32 ≠ 1#32 → IsFile s i size →
      off < 0 ∨ (size : Int) < off → Aborts s c (.pread fd n off)
  /-- writing at a negative offset -/
  | pwriteNeg {fd data off i pos f size} : OpenOn s c fd i pos f → f &&& 3#32 ≠ 0#32 → IsFile s i size → off < 0 →
      Aborts s c (.pwrite fd data off)
  /-- the new name of a link is the root directory -/
  | linkRoot {cg o n} : s.cages c = some cg → o ≠ [] → n ≠ [] → cg.path n = [] → Aborts s c (.link o n)
  /-- removing an empty directory whose mode word has the type bits of something else -/
  | rmdirBits {cg p ps n par pd i nd} : s.cages c = some cg → p ≠ [] → cg.path p = ps ++ [n] →
      Walk s.fs.inodes rootIno ps par → s.fs.inodes par = some pd → pd.mode &&& 0o222#32 ≠ 0#32 →
      Leads s cg p i → s.fs.inodes i = some nd → nd.kind = .dir → Empty s i →
      nd.mode &&& 0o170000#32 ≠ 0o40000#32 → Aborts s c (.rmdir p)
  /-- process numbers outside the cage table -/
  | forkId {ch} : 1024 ≤ ch → Aborts s c (.fork ch)
  | execId {ch} : 1024 ≤ ch → Aborts s c (.exec ch)
  /-- the working directory is gone -/
  | forkCwd {cg ch} : s.cages c = some cg → (∀ i, Leads s cg cg.cwd i → ¬ IsDir s i) → Aborts s c (.fork ch)
  /-- the descriptor is a directory whose parent is gone -/
  | fchdirGone {fd i pos f e} : OpenOn s c fd i pos f → IsDir s i → Entry s i [46, 46] e → ¬ Exists s e →
      Aborts s c (.fchdir fd)

/-! ## Lemmas -/

theorem getFd_out {t : Table} {fd : Int} (h : fd < 0 ∨ 1024 ≤ fd) : getFd t fd = none := by
  have : fd < 0 ∨ fd ≥ (maxFd : Int) := by simpa [maxFd] using h
  unfold getFd; rw [if_pos this]

theorem getFd_none {t : Table} {fd : Int} (h : getFd t fd = none) : fd < 0 ∨ 1024 ≤ fd := by
  unfold getFd at h
  split at h
  · rename_i h1; simpa [maxFd] using h1
  · cases h

theorem readNow_ret (p : Pipe) (n : Nat) (nb : Bool) : (p.readNow n nb).2.1 ≠ .panic := by
  simp only [Pipe.Pipe.readNow]
  (repeat' split) <;> simp

theorem writeLoop_ret (data : List UInt8) (nb : Bool) : ∀ fuel (p : Pipe) w,
    (Pipe.writeLoop data nb fuel p w).2 ≠ .panic := by
  intro fuel
  induction fuel with
  | zero => intro p w; simp [Pipe.writeLoop]
  | succ n ih =>
    intro p w
    simp only [Pipe.writeLoop]
    (repeat' split) <;> first | exact ih _ _ | simp

theorem writeNow_ret (p : Pipe) (data : List UInt8) (nb : Bool) : (p.writeNow data nb).2 ≠ .panic := by
  simp only [Pipe.Pipe.writeNow]
  split
  · simp
  · exact writeLoop_ret _ _ _ _ _

theorem writevLoop_ret (nb : Bool) : ∀ (iovs : List (List UInt8)) (p : Pipe) tot,
    (Pipe.writevLoop nb iovs p tot).2 ≠ .panic := by
  intro iovs
  induction iovs with
  | nil => intro p tot; simp [Pipe.writevLoop]
  | cons iov rest ih =>
    intro p tot
    have hw := writeNow_ret p iov nb
    simp only [Pipe.writevLoop]
    generalize p.writeNow iov nb = r at hw
    obtain ⟨p', r⟩ := r
    simp only at hw
    (repeat' split) <;> first | exact ih _ _ | simp | skip
    all_goals (rename_i e; simp only [Prod.mk.injEq] at e; rw [e.2] at hw; exact hw)

theorem chmodIno_ret {fs : Fs} {i : Nat} (h : ∃ nd, fs.inodes i = some nd) (m : BitVec 32) :
    (fs.chmodIno i m).2 ≠ .panic := by
  obtain ⟨nd, h⟩ := h
  simp only [Fs.chmodIno, h]
  (repeat' split) <;> simp

theorem readChr_ret (dev : BitVec 32 × BitVec 32) (n : Nat) : (readChr dev n).ret ≠ .panic := by
  simp only [readChr]
  (repeat' split) <;> simp [Out.r]

theorem writeChr_ret (dev : BitVec 32 × BitVec 32) (n : Nat) : (writeChr dev n).ret ≠ .panic := by
  simp only [writeChr]
  (repeat' split) <;> simp [Out.r]

theorem nameOf_mem {es : List (Name × Nat)} {i : Nat} {n : Name} (h : nameOf es i = some n) : (n, i) ∈ es := by
  induction es with
  | nil => cases h
  | cons e es ih =>
    obtain ⟨m, j⟩ := e
    simp only [nameOf] at h
    split at h
    · rename_i e; subst e; cases h; simp
    · exact List.mem_cons_of_mem _ (ih h)

/-- Walking up panics only at a directory whose parent is gone, and this can only be the first one. -/
theorem pathOf_panic {ino : Nat → Option Inode} {next : Nat} (T : Tree ino next) :
    ∀ (fuel i : Nat) (first : Bool) (acc : List Name), i ≠ 7 →
    (∀ nd e, ino i = some nd → entGet nd.ents dotdot = some e → e ≠ 7 ∧ ∃ ed, ino e = some ed) →
    (pathOf ino fuel i first acc).1 ≠ .panic := by
  intro fuel
  induction fuel with
  | zero => intro i first acc _ _; simp [pathOf]
  | succ fuel ih =>
    intro i first acc hi7 hq
    simp only [pathOf]
    split
    · simp
    rename_i nd hi
    split
    · rename_i hd
      split
      · simp
      · rename_i par hpar
        obtain ⟨h7, ed, he⟩ := hq nd par hi hpar
        split
        · simp
        split
        · simp
        · rename_i hne
          rw [he]
          simp only
          split
          · rename_i hpd
            split
            · simp
            · rename_i n hn
              have hm := nameOf_mem hn
              apply ih _ _ _ h7
              intro nd' e h1 h2
              have h1 := Option.some.inj (h1.symm.trans he); subst h1
              obtain ⟨g1, q, g2, g3⟩ := T.dots he hpd h7
              have hmp : Proper n ∨ n = dotdot := by
                by_cases hdd : n = dotdot
                · exact .inr hdd
                · refine .inl ⟨?_, hdd⟩
                  rintro rfl
                  have := (entGet_iff (T.nodup he)).2 hm
                  rw [g1] at this; cases this; exact hne rfl
              by_cases hr : par = rootIno
              · have := g3 hr
                subst this
                rw [h2] at g2; cases g2
                obtain ⟨rd, hrd, -⟩ := T.root
                exact ⟨by decide, rd, hrd⟩
              rcases hmp with hp | rfl
              · obtain ⟨p, pd, m, e1, e2, e3⟩ := T.live he hm hp hr
                obtain ⟨-, -, -, jd, e4, e5⟩ := T.ent e1 e2 e3
                have := Option.some.inj (e4.symm.trans he); subst this
                have := (e5 hpd).1
                rw [h2] at this; cases this
                refine ⟨?_, pd, e1⟩
                rintro rfl
                obtain ⟨p', pd', m', f1, f2, f3⟩ := T.live e1 e2 e3 (by decide)
                exact (T.ent f1 f2 f3).2.2.1 rfl
              · have := (entGet_iff (T.nodup he)).2 hm
                rw [h2] at this; cases this
                exact ⟨hi7, nd, hi⟩
          · simp
    · simp

/-! ## The theorems -/

/-- C58.  Each of the listed calls aborts. -/
theorem aborts_panic {s : State} (h : Reach s) {c : Nat} {op : Op} (ha : Aborts s c op) : (step s c op).2.ret = .panic := by
  have hI := h.inv
  cases ha with
  | noCage hn => simp only [step, hn, Out.r]
  | range hf hr =>
    cases hc : s.cages c with
    | none => simp only [step, hc, Out.r]
    | some cg =>
      have hg := getFd_out (t := cg.fds) hr
      cases op <;> simp only [fdArg, Option.some.injEq, reduceCtorEq] at hf <;> subst hf <;>
        simp only [step, hc, fchmod, fstat, fchdir, ftruncate, read, pread, write, pwrite, writev, lseek, close, fcntl, hg, Out.r]
  | readPast ho hf hi hlt =>
    rename_i fd n i pos f size
    obtain ⟨cg, hc, hg, -⟩ := ho.get
    have hfo := hI.fobj ho hi
    obtain ⟨nd, h1, h2, h3⟩ := hi
    have hw : isWronly f = false := by unfold isWronly; simpa [oRDWRFLAGS] using hf
    simp only [step, hc, read, hg, hw, h1, h2, Fs.readAt, hfo, if_pos hlt, Bool.false_eq_true, if_false, Out.r]
  | preadOut ho hf hi hr =>
    rename_i fd n off i pos f size
    obtain ⟨cg, hc, hg, -⟩ := ho.get
    have hfo := hI.fobj ho hi
    obtain ⟨nd, h1, h2, h3⟩ := hi
    have hw : isWronly f = false := by unfold isWronly; simpa [oRDWRFLAGS] using hf
    simp only [step, hc, pread, hg, hw, h1, h2, Bool.false_eq_true, if_false]
    split
    · rfl
    · rename_i hn
      rcases hr with hr | hr
      · exact absurd hr hn
      · simp only [Fs.readAt, hfo, gt_iff_lt]
        rw [if_pos (by omega)]; rfl
  | pwriteNeg ho hf hi hr =>
    rename_i fd data off i pos f size
    obtain ⟨cg, hc, hg, -⟩ := ho.get
    obtain ⟨nd, h1, h2, h3⟩ := hi
    have hw : isRdonly f = false := by unfold isRdonly; simpa [oRDWRFLAGS] using hf
    simp only [step, hc, pwrite, hg, hw, h1, h2, Bool.false_eq_true, if_false, if_pos hr, Out.r]
  | linkRoot hc h1 h2 h3 =>
    simp only [step, hc, nonEmpty, h1, h2, if_false, h3, Fs.link, List.getLast?_nil, State.onFs, Out.r]
  | rmdirBits hc hp heq hw hpar hwr hl hi hk he hb =>
    rename_i cg p ps n par pd i nd
    have T := hI.fs.tree
    obtain ⟨r, hr, hlook⟩ := look T (cg.path p) (hI.gp hc p)
    simp only [step, hc, nonEmpty, hp, if_false, State.onFs, Out.r]
    have hgood := hI.gp hc p
    cases hlook with
    | root e => rw [e] at heq; simp at heq
    | gone _ _ hno => exact absurd hl (hno i)
    | free _ _ _ _ _ _ _ hno => exact absurd hl (hno i)
    | found heq' w w' hpar' hd hl' hf hg hi' h1 h7 hne =>
      rename_i i' par' ps' n' pd' nd'
      rw [heq] at heq'
      obtain ⟨e1, e2⟩ := List.append_inj' heq' rfl
      subst e1; cases e2
      have e := walk_fun T w hw; subst e
      have e := walk_fun T w' hl; subst e
      have e := Option.some.inj (hpar'.symm.trans hpar); subst e
      have e := Option.some.inj (hi'.symm.trans hi); subst e
      have hnd : nd'.isDir := isDir_iff.2 hk
      have hlk := (empty_iff h hi' hnd h7).1 he
      have hm : modeIsDir nd'.mode = false := by simpa [modeIsDir, sFileType, sIFDIR] using hb
      have hwr' : ¬ pd'.mode &&& sIWALL = 0 := hwr
      simp only [Fs.rmdir, hr, hpar', hi', hwr', and_false, if_false, hnd, if_true, hm, Bool.not_false]
      rw [if_neg (by omega)]
  | forkId hge =>
    cases hc : s.cages c with
    | none => simp only [step, hc, Out.r]
    | some cg => simp only [step, hc, fork]; rw [if_pos (by simpa [maxCage] using hge)]; rfl
  | execId hge =>
    cases hc : s.cages c with
    | none => simp only [step, hc, Out.r]
    | some cg => simp only [step, hc, exec]; rw [if_pos (by simpa [maxCage] using hge)]; rfl
  | forkCwd hc hcw =>
    rename_i cg ch
    have hok := (hI.cage c cg hc).2.2
    have hself : cg.path cg.cwd = names cg.cwd := by rw [Cage.path, normpath_self hok]
    simp only [step, hc, fork]
    split
    · rfl
    split
    · rfl
    rename_i s1 he
    have hsub := Sub.forkCopy he
    rw [← hself]
    split
    · rename_i i par hw
      split
      · rfl
      · rename_i nd hnd
        split
        · rename_i hd
          exfalso
          obtain ⟨nd0, x1, x2, -⟩ := hsub.old i nd hnd
          have hx1 : s.fs.inodes i = some nd0 := x1
          have hl : Leads s cg cg.cwd i := by
            obtain ⟨r, hr, hlook⟩ := look hI.fs.tree (cg.path cg.cwd) (hI.gp hc _)
            rw [hw] at hr; cases hr
            cases hlook with
            | root e => unfold Leads; rw [e]; exact .here _
            | found _ _ w' => exact w'
          exact hcw i hl ⟨nd0, hx1, by rw [← x2]; exact isDir_iff.1 hd⟩
        · rfl
    · rfl
  | fchdirGone ho hd he hn =>
    rename_i fd i pos f e
    obtain ⟨cg, hc, hg, hs⟩ := ho.get
    obtain ⟨nd, hi, hk⟩ := hd
    have T := hI.fs.tree
    have hm := (entry_iff hi).1 he
    have hdd : entGet nd.ents dotdot = some e := (entGet_iff (T.nodup hi)).2 hm
    have hen : s.fs.inodes e = none := by
      cases hx : s.fs.inodes e with
      | none => rfl
      | some x => exact absurd (by unfold Exists; rw [hx]; simp) hn
    have h1 : ¬ e = i := by rintro rfl; rw [hen] at hi; cases hi
    simp only [step, hc, fchdir, hg, pathOf, hi, isDir_iff.2 hk, if_true, hdd, Bool.not_true, Bool.false_eq_true, and_false,
      if_false, h1, hen, Out.r]

/-- C58.  In a reachable state no other call aborts.  (`hseven`: the unreachable directory that formatting a disk leaves
behind has number 7; no path leads to it.) -/
theorem never_panics {s : State} (h : Reach s) {c : Nat} {op : Op} (ht : Tame s c op) (hn : ¬ Aborts s c op)
    (hseven : ∀ fd i pos f, op = .fchdir (fd : Nat) → OpenOn s c fd i pos f → ¬ Entry s i [46, 46] 7) :
    (step s c op).2.ret ≠ .panic := by
  have hI := h.inv
  cases hc : s.cages c with
  | none => exact absurd (.noCage hc) hn
  | some cg =>
  have gp := hI.gp hc
  have hrange : ∀ fd, fdArg op = some fd → ∃ o, getFd cg.fds fd = some o ∧ cg.fds fd.toNat = o ∧
      fd.toNat < 1024 ∧ (fd.toNat : Int) = fd := by
    intro fd hf
    cases hg : getFd cg.fds fd with
    | none => exact absurd (.range hf (getFd_none hg)) hn
    | some o =>
      obtain ⟨h1, h2, h3, h4⟩ := getFd_some hg
      exact ⟨o, rfl, h1, by simpa [maxFd] using h3, h4⟩
  have hold : ∀ {fd i pos f}, cg.fds fd = some (.file i pos f) →
      ∃ nd, s.fs.inodes i = some nd ∧ nd.kind ≠ .sock ∧ i ≠ 7 := fun hd => hI.fs.held (hI.file_held hc hd)
  have hpipe : ∀ {fd id f}, cg.fds fd = some (.pipe id f) → ∃ p, s.pipes id = some p := by
    intro fd id f hd
    obtain ⟨p, hp, -⟩ := open_alive h hc hd
    exact ⟨p, hp⟩
  have hne : ∀ {p : Str} {r : State × Out}, (p ≠ [] → r.2.ret ≠ .panic) → (nonEmpty p s r).2.ret ≠ .panic := by
    intro p r hr
    simp only [nonEmpty]
    split
    · simp [Out.r]
    · rename_i hp; exact hr hp
  have hwok : ∀ {fd i pos f nd}, cg.fds fd = some (.file i pos f) → s.fs.inodes i = some nd → nd.kind = .file → fd < 1024 →
      ∀ off data, ∃ fs', s.fs.writeIno i nd off data = some fs' := by
    intro fd i pos f nd hd hi hk hlt off data
    have hf : IsFile s i nd.size := ⟨nd, hi, hk, rfl⟩
    have ho : OpenOn s c fd i pos f := ⟨hlt, cg, hc, hd⟩
    have h1 := hI.content hf
    obtain ⟨fs', e, -⟩ := writeIno_eq (nd := nd) h1.1 h1.2 (hI.fobj ho hf) off data
    exact ⟨fs', e⟩
  have hlookup : ∀ p, ∃ r, s.fs.walk (cg.path p) = some r ∧ Look s.fs (cg.path p) r := fun p => look hI.fs.tree _ (gp p)
  have hlk : ∀ {p i par}, Look s.fs (cg.path p) (some i, par) → ∃ nd, s.fs.inodes i = some nd := by
    intro p i par hl
    cases hl with
    | root => obtain ⟨nd, h1, -⟩ := hI.fs.tree.root; exact ⟨nd, h1⟩
    | found _ _ _ _ _ _ _ _ hi => exact ⟨_, hi⟩
  simp only [Tame, hc] at ht
  cases op with
  | openP p f m => simpa only [step, hc] using (hI.openSys hc p f m).2
  | mkdir p m => simpa only [step, hc] using hne fun _ => (hI.fs.mkdir (gp p) m).2
  | mknod p m d => simpa only [step, hc] using hne fun _ => (hI.fs.mknod (gp p) m d).2
  | link o n =>
    simp only [step, hc]
    refine hne fun h1 => hne fun h2 h3 => ?_
    exact hn (.linkRoot hc h1 h2 ((hI.fs.link (gp o) (gp n)).2 h3))
  | unlink p => simpa only [step, hc] using hne fun _ => (hI.fs.unlink (gp p) ht).2
  | rename o n => simpa only [step, hc] using hne fun _ => hne fun _ => (hI.fs.rename (gp o) (gp n) ht).2
  | rmdir p =>
    simp only [step, hc]
    refine hne fun hp => ?_
    simp only [State.onFs, Out.r]
    obtain ⟨r, hr, hlook⟩ := hlookup p
    cases hlook with
    | root => simp [Fs.rmdir, hr]
    | gone => simp [Fs.rmdir, hr]
    | free => simp [Fs.rmdir, hr]
    | found heq w w' hpar hd hl hf hg hi h1 h7 hne' =>
      rename_i i par ps n pd nd
      simp only [Fs.rmdir, hr, hpar, hi]
      split
      · simp
      rename_i hwr
      split
      · rename_i hnd
        split
        · simp
        rename_i hle
        split
        · rename_i hm
          exact absurd (Aborts.rmdirBits hc hp heq w hpar (fun e => hwr ⟨hd, e⟩) w' hi (isDir_iff.1 hnd)
            ((empty_iff h hi hnd h7).2 (by omega)) (by simpa [modeIsDir, sFileType, sIFDIR] using hm)) hn
        rename_i hm
        split
        · simp
        rename_i hown
        rw [heq] at hr ⊢
        obtain ⟨fs', q, -⟩ := rmdir_eq hr hpar hd hi hnd hf hne' (fun e => hwr ⟨hd, e⟩) (by omega) (by simpa using hm) hown
        simp only [Fs.rmdir, hr, hpar, hi, if_neg hwr, hnd, if_true, if_neg hle, if_neg hm, if_neg hown] at q
        rw [q]; simp
      · simp
  | chmod p m =>
    simp only [step, hc, State.onFs, Out.r, Fs.chmod]
    obtain ⟨⟨a, b⟩, hr, hlook⟩ := hlookup p
    rw [hr]
    cases a with
    | none => simp
    | some i => exact chmodIno_ret (hlk hlook) m
  | stat p =>
    simp only [step, hc, Fs.stat]
    obtain ⟨⟨a, b⟩, hr, hlook⟩ := hlookup p
    rw [hr]
    cases a with
    | none => simp
    | some i => obtain ⟨nd, hi⟩ := hlk hlook; simp [hi]
  | access p m =>
    simp only [step, hc, Fs.access, Out.r]
    obtain ⟨⟨a, b⟩, hr, hlook⟩ := hlookup p
    rw [hr]
    cases a with
    | none => simp
    | some i => obtain ⟨nd, hi⟩ := hlk hlook; simp only [hi]; (repeat' split) <;> simp
  | chdir p =>
    simp only [step, hc, chdir]
    obtain ⟨⟨a, b⟩, hr, hlook⟩ := hlookup p
    rw [hr]
    cases a with
    | none => simp [Out.r]
    | some i => obtain ⟨nd, hi⟩ := hlk hlook; simp only [hi]; split <;> simp [Out.r]
  | truncate p l => simpa only [step, hc, State.onFs, Out.r] using (hI.fs.truncate (gp p) l).2
  | fchmod fd m =>
    obtain ⟨o, hg, hd, hlt, -⟩ := hrange fd rfl
    simp only [step, hc, fchmod, hg]
    (repeat' split) <;> try simp [Out.r]
    · rename_i e; cases e
    · rename_i e; cases e
      obtain ⟨nd, hi, -⟩ := hold hd
      exact chmodIno_ret ⟨nd, hi⟩ m
  | fstat fd =>
    obtain ⟨o, hg, hd, hlt, -⟩ := hrange fd rfl
    simp only [step, hc, fstat, hg]
    cases o with
    | none => simp [Out.r]
    | some d =>
      cases d with
      | file i pos f => obtain ⟨nd, hi, -⟩ := hold hd; simp [hi]
      | _ => simp [Out.r]
  | fchdir fd =>
    obtain ⟨o, hg, hd, hlt, hfd⟩ := hrange fd rfl
    simp only [step, hc, fchdir, hg]
    cases o with
    | none => simp [Out.r]
    | some d =>
      cases d with
      | file i pos f =>
        obtain ⟨nd, hi, -, h7⟩ := hold hd
        have ho : OpenOn s c fd.toNat i pos f := ⟨hlt, cg, hc, hd⟩
        have hp : (pathOf s.fs.inodes (s.fs.next + 1) i true []).1 ≠ .panic := by
          cases hnd : nd.isDir with
          | false => simp [pathOf, hi, hnd]
          | true =>
            refine pathOf_panic hI.fs.tree _ _ _ _ h7 fun nd' e h1 h2 => ?_
            have := Option.some.inj (h1.symm.trans hi); subst this
            have he : Entry s i [46, 46] e := (entry_iff hi).2 (entGet_mem h2)
            refine ⟨?_, ?_⟩
            · rintro rfl
              exact hseven fd.toNat i pos f (by rw [hfd]) ho he
            · cases hx : s.fs.inodes e with
              | some x => exact ⟨x, rfl⟩
              | none =>
                have := Aborts.fchdirGone ho ⟨nd', hi, isDir_iff.1 hnd⟩ he (fun hy => hy hx)
                rw [hfd] at this
                exact absurd this hn
        simp only
        split
        · simp [Out.r]
        · rename_i hx; rw [hx] at hp; exact hp
      | _ => simp [Out.r]
  | ftruncate fd l =>
    obtain ⟨o, hg, hd, hlt, -⟩ := hrange fd rfl
    simp only [step, hc, ftruncate, hg]
    cases o with
    | none => simp [Out.r]
    | some d =>
      cases d with
      | file i pos f =>
        simp only
        split
        · simp [Out.r]
        · have hp := hI.file_held hc hd
          obtain ⟨nd, hnd, -⟩ := hI.fs.held hp
          exact (hI.fs.truncIno i l true (fun _ => hp) ⟨nd, hnd⟩).2
      | _ => simp [Out.r]
  | read fd n =>
    obtain ⟨o, hg, hd, hlt, hfd⟩ := hrange fd rfl
    simp only [step, hc, read, hg]
    cases o with
    | none => simp [Out.r]
    | some d =>
      cases d with
      | file i pos f =>
        obtain ⟨nd, hi, hs, -⟩ := hold hd
        simp only [hi]
        split
        · simp [Out.r]
        rename_i hw
        cases hk : nd.kind with
        | sock => exact absurd hk hs
        | dir => simp [Out.r]
        | chr dev => exact readChr_ret dev n
        | file =>
          have hf : IsFile s i nd.size := ⟨nd, hi, hk, rfl⟩
          have ho : OpenOn s c fd.toNat i pos f := ⟨hlt, cg, hc, hd⟩
          simp only [Fs.readAt, hI.fobj ho hf]
          split
          · rename_i hz
            split at hz
            · rename_i hgt
              have := Aborts.readPast (n := n) ho (by intro e; apply hw; unfold isWronly; simpa [oRDWRFLAGS] using e) hf hgt
              rw [hfd] at this
              exact absurd this hn
            · cases hz
          · simp
      | pipe id f =>
        obtain ⟨p, hp⟩ := hpipe hd
        simp only [hp]
        split
        · simp [Out.r]
        · exact readNow_ret _ _ _
      | _ => simp [Out.r]
  | pread fd n off =>
    obtain ⟨o, hg, hd, hlt, hfd⟩ := hrange fd rfl
    simp only [step, hc, pread, hg]
    cases o with
    | none => simp [Out.r]
    | some d =>
      cases d with
      | file i pos f =>
        obtain ⟨nd, hi, hs, -⟩ := hold hd
        simp only [hi]
        split
        · simp [Out.r]
        rename_i hw
        cases hk : nd.kind with
        | sock => exact absurd hk hs
        | dir => simp [Out.r]
        | chr dev => exact readChr_ret dev n
        | file =>
          have hf : IsFile s i nd.size := ⟨nd, hi, hk, rfl⟩
          have ho : OpenOn s c fd.toNat i pos f := ⟨hlt, cg, hc, hd⟩
          have key : ¬ (off < 0 ∨ (nd.size : Int) < off) := by
            intro hx
            have := Aborts.preadOut (n := n) ho (by intro e; apply hw; unfold isWronly; simpa [oRDWRFLAGS] using e) hf hx
            rw [hfd] at this
            exact hn this
          simp only [Fs.readAt, hI.fobj ho hf]
          rw [if_neg (by omega), if_neg (by omega)]
          simp
      | _ => simp [Out.r]
  | write fd data =>
    obtain ⟨o, hg, hd, hlt, hfd⟩ := hrange fd rfl
    simp only [step, hc, write, hg]
    cases o with
    | none => simp [Out.r]
    | some d =>
      cases d with
      | file i pos f =>
        obtain ⟨nd, hi, hs, -⟩ := hold hd
        simp only [hi]
        split
        · simp [Out.r]
        cases hk : nd.kind with
        | sock => exact absurd hk hs
        | dir => simp [Out.r]
        | chr dev => exact writeChr_ret dev _
        | file =>
          obtain ⟨fs', e⟩ := hwok hd hi hk hlt pos data
          simp [e, Out.r]
      | pipe id f =>
        obtain ⟨p, hp⟩ := hpipe hd
        simp only [hp]
        split
        · simp [Out.r]
        · exact writeNow_ret _ _ _
      | stream k f => simp only; split <;> simp [Out.r]
      | _ => simp [Out.r]
  | pwrite fd data off =>
    obtain ⟨o, hg, hd, hlt, hfd⟩ := hrange fd rfl
    simp only [step, hc, pwrite, hg]
    cases o with
    | none => simp [Out.r]
    | some d =>
      cases d with
      | file i pos f =>
        obtain ⟨nd, hi, hs, -⟩ := hold hd
        simp only [hi]
        split
        · simp [Out.r]
        rename_i hw
        cases hk : nd.kind with
        | sock => exact absurd hk hs
        | dir => simp [Out.r]
        | chr dev => exact writeChr_ret dev _
        | file =>
          have hf : IsFile s i nd.size := ⟨nd, hi, hk, rfl⟩
          have ho : OpenOn s c fd.toNat i pos f := ⟨hlt, cg, hc, hd⟩
          obtain ⟨fs', e⟩ := hwok hd hi hk hlt off.toNat data
          simp only
          split
          · rename_i hx
            have := Aborts.pwriteNeg (data := data) ho (by intro e; apply hw; unfold isRdonly; simpa [oRDWRFLAGS] using e) hf hx
            rw [hfd] at this
            exact absurd this hn
          · simp [e, Out.r]
      | _ => simp [Out.r]
  | writev fd iovs =>
    obtain ⟨o, hg, hd, hlt, hfd⟩ := hrange fd rfl
    simp only [step, hc, writev, hg]
    cases o with
    | none => simp [Out.r]
    | some d =>
      cases d with
      | file i pos f =>
        obtain ⟨nd, hi, hs, -⟩ := hold hd
        simp only [hi]
        split
        · simp [Out.r]
        cases hk : nd.kind with
        | sock => exact absurd hk hs
        | dir => simp [Out.r]
        | chr dev => exact writeChr_ret dev _
        | file =>
          obtain ⟨fs', e⟩ := hwok hd hi hk hlt pos iovs.flatten
          simp [e, Out.r]
      | pipe id f =>
        obtain ⟨p, hp⟩ := hpipe hd
        simp only [hp]
        split
        · simp [Out.r]
        · exact writevLoop_ret _ _ _ _
      | _ => simp [Out.r]
  | lseek fd off wh =>
    obtain ⟨o, hg, hd, hlt, hfd⟩ := hrange fd rfl
    simp only [step, hc, lseek, hg]
    cases o with
    | none => simp [Out.r]
    | some d =>
      cases d with
      | file i pos f =>
        obtain ⟨nd, hi, hs, -⟩ := hold hd
        simp only [hi]
        cases hk : nd.kind with
        | sock => exact absurd hk hs
        | dir => simp only; (repeat' split) <;> simp [Out.r]
        | chr dev => simp [Out.r]
        | file => simp only; (repeat' split) <;> simp [Out.r]
      | _ => simp [Out.r]
  | getdents fd b =>
    simp only [step, hc, getdents]
    split
    · simp [Out.r]
    split
    · simp [Out.r]
    · simp [Out.r]
    · rename_i i pos f hg
      obtain ⟨nd, hi, -⟩ := hold (getFd_some hg).1
      simp only [hi]
      split
      · simp only [Getdents.getdents]; split <;> simp
      · simp [Out.r]
    · simp [Out.r]
  | dup fd =>
    simp only [step, hc, dup]
    split
    · simp [Out.r]
    split
    · simp [Out.r]
    · simp [Out.r]
    · rename_i d hg
      exact (hI.dupFrom hc (getFd_some hg).1 0).2
  | dup2 o n => simpa only [step, hc] using (hI.dup2 hc o n ht).2
  | close fd =>
    obtain ⟨o, hg, hd, hlt, hfd⟩ := hrange fd rfl
    simp only [step, hc, close, hg]
    cases o with
    | none => simp [Out.r, State.closeSlot]
    | some d =>
      obtain ⟨s', e, -⟩ := hI.closeSlot hc hd
      simp [e, Out.r]
  | fcntl fd cmd arg =>
    obtain ⟨o, hg, hd, hlt, hfd⟩ := hrange fd rfl
    simp only [step, hc, fcntl, hg]
    cases o with
    | none => simp [Out.r]
    | some d =>
      simp only
      (repeat' split) <;> first | exact (hI.dupFrom hc hd _).2 | simp [Out.r]
  | pipe2 fl => simpa only [step, hc] using (hI.pipe2 hc fl ht).2
  | socket nb ce =>
    simp only [step, hc]
    exact (hI.putNew hc (d := .sock _) (fun r => by cases r <;> rfl) trivial).2
  | epollCreate n =>
    simp only [step, hc]
    split
    · simp [Out.r]
    · exact (hI.putNew hc (d := .epoll _) (fun r => by cases r <;> rfl) trivial).2
  | fork ch =>
    have hlt : ch < 1024 := by
      by_cases hx : ch < 1024
      · exact hx
      · exact absurd (.forkId (by omega)) hn
    have : (step s c (.fork ch)).2.ret = .ok 0 := by
      refine fork_succeeds h hc ht hlt ((chdir_iff h hc _).2 ?_)
      apply Classical.byContradiction
      intro hx
      exact hn (.forkCwd hc fun i hi hd => hx ⟨i, hi, hd⟩)
    rw [this]; simp
  | exec ch =>
    have hlt : ¬ ch ≥ maxCage := by
      intro hx
      exact hn (.execId (by simpa [maxCage] using hx))
    obtain ⟨s', e1, e2, e3, e4⟩ := hI.closeWhere hc (fun d => d.flags &&& oCLOEXEC != 0) maxFd (Nat.le_refl maxFd)
    have hc' : s'.cages c = some { cg with fds := closed (fun d => d.flags &&& oCLOEXEC != 0) maxFd cg.fds } := by
      rw [e4]; simp
    have heq : Kernel.exec s c cg ch = ((s'.setCage c none).setCage ch (some { cg with fds := closed (fun d => d.flags &&& oCLOEXEC != 0) maxFd cg.fds }), .r (.ok 0)) := by
      unfold Kernel.exec; rw [if_neg hlt, e1]; simp only [hc']
    simp only [step, hc, heq, Out.r]
    simp
  | exit st =>
    obtain ⟨s', e1, -⟩ := hI.closeWhere hc (fun _ => true) maxFd (Nat.le_refl maxFd)
    have heq : Kernel.exit s c st = (s'.setCage c none, .r (.ok st)) := by unfold Kernel.exit; rw [e1]
    simp only [step, hc, heq, Out.r]
    simp

/-! ## Concrete cases -/

/-- Reading at the end of a file is not among the aborting calls, reading one byte beyond it is. -/
example : ¬ Aborts demo 0 (.read 3 2) ∧ Aborts (step demo 0 (.lseek 3 4 0)).1 0 (.read 3 2) := by
  constructor
  · intro h
    generalize ho : Op.read 3 2 = op at h
    cases h with
    | noCage hn => rw [← Option.isNone_iff_eq_none] at hn; revert hn; decide +kernel
    | range hf hr => subst ho; simp only [fdArg, Option.some.injEq] at hf; subst hf; omega
    | readPast h1 h2 h3 h4 =>
      rename_i fd n i pos f size
      have e : fd = 3 := by injection ho with h _; omega
      subst e
      obtain ⟨-, cg, hc, hd⟩ := h1
      have e1 : slot demo 0 3 = some (.file i pos f) := by rw [slot_eq hc]; exact hd
      have e2 : slot demo 0 3 = some (.file 9 3 2#32) := by decide +kernel
      rw [e2] at e1; cases e1
      obtain ⟨nd, g1, g2, g3⟩ := h3
      have e3 : (demo.fs.inodes 9).map Inode.size = some 3 := by decide +kernel
      rw [g1] at e3; simp only [Option.map_some, Option.some.injEq] at e3; omega
    | _ => cases ho
  · refine .readPast (fd := 3) (i := 9) (pos := 4) (f := 2#32) (size := 3) ?_ (by decide) ?_ (by omega)
    · exact openOn_of_slot (by omega) (by decide +kernel)
    · have : ((step demo 0 (.lseek 3 4 0)).1.fs.inodes 9).map (fun nd => (nd.kind, nd.size)) = some (.file, 3) := by
        decide +kernel
      cases hx : (step demo 0 (.lseek 3 4 0)).1.fs.inodes 9 with
      | none => rw [hx] at this; cases this
      | some nd =>
        rw [hx] at this
        simp only [Option.map_some, Option.some.injEq, Prod.mk.injEq] at this
        exact ⟨nd, hx, this.1, this.2⟩

/-- C58 fails as stated: an ordinary call with a bad argument aborts everything.  Here `link` to `/`. -/
theorem link_root_violated : Reach demo ∧ Aborts demo 0 (.link pA [47]) ∧ (step demo 0 (.link pA [47])).2.ret = .panic := by
  have hc : ∃ cg, demo.cages 0 = some cg ∧ cg.path [47] = [] := by
    cases hx : demo.cages 0 with
    | none =>
      exfalso
      have : (demo.cages 0).isSome = true := by decide +kernel
      rw [hx] at this; cases this
    | some cg =>
      refine ⟨cg, rfl, ?_⟩
      have : (demo.cages 0).map (fun cg => cg.path [47]) = some [] := by decide +kernel
      rw [hx] at this; simpa using this
  obtain ⟨cg, h1, h2⟩ := hc
  have ha : Aborts demo 0 (.link pA [47]) := .linkRoot h1 (by decide) (by decide) h2
  exact ⟨demo_reach, ha, aborts_panic demo_reach ha⟩

/-- C58 fails as stated: `fstat` of descriptor 2000 aborts in every state. -/
theorem bad_descriptor_violated {s : State} (h : Reach s) (c : Nat) : (step s c (.fstat 2000)).2.ret = .panic :=
  aborts_panic h (.range rfl (.inr (by omega)))

end Verif.Kernel
