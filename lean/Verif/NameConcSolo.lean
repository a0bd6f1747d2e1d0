import Verif.NameConc
import Verif.FsOps

/-!
# A path call that is not interrupted

If no other thread does anything between its first and its last step, a call of `NameConc` has the
effect and the answer of the corresponding call of `Verif.Fs`: the cut versions are the same
calls.
-/

namespace Verif.NameConc
open Verif.Path Verif.Fs

/-- `n` further steps of thread `t`. -/
def goes (t : Nat) : Nat → State → State
  | 0, s => s
  | n + 1, s => goes t n (step s (.go t))

theorem goes_add (t : Nat) (m n : Nat) (s : State) : goes t (m + n) s = goes t n (goes t m s) := by
  induction m generalizing s with
  | zero => simp [goes]
  | succ m ih => rw [Nat.succ_add]; simp only [goes, ih]

/-- Thread `t` gets from `s` to `s'` by its own steps. -/
def Gets (t : Nat) (s s' : State) : Prop := ∃ n, goes t n s = s'

theorem Gets.refl (t : Nat) (s : State) : Gets t s s := ⟨0, rfl⟩
theorem Gets.trans {t : Nat} {a b c : State} (h : Gets t a b) (h' : Gets t b c) : Gets t a c := by
  obtain ⟨m, rfl⟩ := h; obtain ⟨n, rfl⟩ := h'; exact ⟨m + n, goes_add _ _ _ _⟩
theorem Gets.one {t : Nat} {s s' : State} (hd : s.dead = false) (h : go s t = s') : Gets t s s' :=
  ⟨1, by simp [goes, step, hd, h]⟩

@[simp] theorem to_fs (s : State) (t fs p) : (s.to t fs p).fs = fs := rfl
@[simp] theorem to_pc (s : State) (t fs p) : (s.to t fs p).pc t = p := by simp [State.to]
@[simp] theorem to_dead (s : State) (t fs p) : (s.to t fs p).dead = s.dead := rfl
@[simp] theorem to_to (s : State) (t fs p fs' p') : (s.to t fs p).to t fs' p' = s.to t fs' p' := by
  simp [State.to, upd_upd]
@[simp] theorem fin_to (s : State) (t fs p fs' o) : (s.to t fs p).fin t fs' o = s.fin t fs' o := by
  simp [State.to, State.fin, upd_upd]
@[simp] theorem finOpen_to (s : State) (t fs p fs' i z) :
    (s.to t fs p).finOpen t fs' i z = s.finOpen t fs' i z := by
  simp [State.to, State.fin, State.finOpen, upd_upd]
@[simp] theorem die_dead (s : State) : s.die.dead = true := rfl

theorem arrive_to (s : State) (t : Nat) (fs : Fs) (pc : Pc) (p : List Name) (r : Option Nat × Option Nat) (g : Goal) :
    arrive (s.to t fs pc) t p r g = arrive { s with fs := fs } t p r g := by
  have e1 : ∀ o, (s.to t fs pc).fin t fs o = ({ s with fs := fs } : State).fin t fs o := by
    intro o; simp [State.to, State.fin, upd_upd]
  have e2 : ∀ p', (s.to t fs pc).to t fs p' = ({ s with fs := fs } : State).to t fs p' := by
    intro o; simp [State.to, upd_upd]
  cases g <;> simp only [arrive, to_fs, e1, e2]

/-- The steps of the walk are `metawalkandparent` of `Verif.Fs`; `none` is its panic. -/
theorem gets_walk {s : State} {t : Nat} (hd : s.dead = false) (fs : Fs) (p : List Name) (g : Goal) (rest : List Name) :
    ∀ (cur prev : Option Nat),
    match walkFrom fs.inodes rest cur prev with
    | some r => Gets t (s.to t fs (.walk p rest cur prev g)) (arrive { s with fs := fs } t p r g)
    | none => ∃ s', Gets t (s.to t fs (.walk p rest cur prev g)) s' ∧ s'.dead = true := by
  induction rest with
  | nil =>
    intro cur prev
    exact .one hd (by simp only [go, to_pc, arrive_to])
  | cons n ns ih =>
    intro cur prev
    cases cur with
    | none => exact .one hd (by simp only [go, to_pc, arrive_to])
    | some i =>
      simp only [walkFrom]
      cases hi : fs.inodes i with
      | none => exact ⟨State.die _, .one hd (by simp only [go, to_pc, to_fs, hi]; rfl), rfl⟩
      | some nd =>
        dsimp only
        by_cases hdir : nd.isDir = true
        · simp only [hdir, if_true]
          have h1 : Gets t (s.to t fs (.walk p (n :: ns) (some i) prev g))
              (s.to t fs (.walk p ns (entGet nd.ents n) (some i) g)) :=
            .one hd (by simp only [go, to_pc, to_fs, hi, hdir, if_true, to_to])
          have h2 := ih (entGet nd.ents n) (some i)
          revert h2
          cases walkFrom fs.inodes ns (entGet nd.ents n) (some i) with
          | some r => exact fun h2 => h1.trans h2
          | none => rintro ⟨s', h2, h3⟩; exact ⟨s', h1.trans h2, h3⟩
        · simp only [hdir, Bool.false_eq_true, if_false]
          exact .one hd (by simp only [go, to_pc, to_fs, hi, hdir, Bool.false_eq_true, if_false, arrive_to])

/-- The calls of `Verif.Fs`; `none` is a panic. -/
def atomic (fs : Fs) : Call → Option (Fs × Out)
  | .mkdir p mode => conv (fs.mkdir p mode)
  | .mknod p mode dev => conv (fs.mknod p mode dev)
  | .open p flags mode =>
    match fs.openP p flags mode with
    | (fs', .opened i z) => some (fs', .opened i z)
    | (fs', .failed r) => conv (fs', r)
  | .link old new => conv (fs.link old new)
  | .unlink p => conv (fs.unlink p)
  | .rmdir p => conv (fs.rmdir p)
  | .rename old new => conv (fs.rename old new)
  | .stat p =>
    match fs.stat p with
    | (.panic, _) => none
    | (_, some st) => some (fs, .stat st)
    | (r, none) => some (fs, .ret r)
  | .chmod p mode => conv (fs.chmod p mode)
  | .close i => conv (fs.closeIno i)
where
  conv (x : Fs × Ret) : Option (Fs × Out) := if x.2 = .panic then none else some (x.1, .ret x.2)

/-- What an uninterrupted call leaves of the rest of the system. -/
def State.done (s : State) (t : Nat) (fs : Fs) (o : Out) : Call → State
  | .close i => { s.fin t fs o with held := upd s.held i (s.held i - 1) }
  | _ =>
    match o with
    | .opened i z => s.finOpen t fs i z
    | o => s.fin t fs o

/-- The result of running to the end. -/
def Ends (t : Nat) (s : State) (r : Option State) : Prop :=
  match r with
  | some s' => Gets t s s'
  | none => ∃ s', Gets t s s' ∧ s'.dead = true

theorem Ends.after {t : Nat} {a b : State} {r} (h : Gets t a b) (h' : Ends t b r) : Ends t a r := by
  cases r with
  | some s' => exact h.trans h'
  | none => obtain ⟨s', h1, h2⟩ := h'; exact ⟨s', h.trans h1, h2⟩

theorem Ends.done {t : Nat} {a b : State} (h : a = b) : Ends t a (some b) := ⟨0, h⟩

theorem Ends.panic {t : Nat} {a : State} (h : a.dead = true) : Ends t a none := ⟨a, .refl _ _, h⟩

/-- One step and then the rest. -/
theorem Ends.step {t : Nat} {a b : State} {r} (hd : a.dead = false) (hg : go a t = b) (h : Ends t b r) : Ends t a r :=
  .after (.one hd hg) h

/-- The walk and then the rest. -/
theorem Ends.walk {s : State} {t : Nat} (hd : s.dead = false) {fs : Fs} {p : List Name} {g : Goal} {r : Option State}
    (hroot : fs.inodes rootIno ≠ none)
    (h1 : fs.walk p = none → r = none)
    (h2 : ∀ x, fs.walk p = some x → Ends t (arrive { s with fs := fs } t p x g) r) :
    Ends t (s.to t fs (.walk p p (some rootIno) none g)) r := by
  have := gets_walk (t := t) hd fs p g p (some rootIno) none
  have hw : fs.walk p = walkFrom fs.inodes p (some rootIno) none := by
    unfold Fs.walk
    split
    · rename_i e; exact absurd e hroot
    · rfl
  rw [hw] at h1 h2
  cases hx : walkFrom fs.inodes p (some rootIno) none with
  | none => rw [hx] at this; rw [h1 hx]; exact this
  | some x => rw [hx] at this; exact .after this (h2 x hx)

theorem Ends.log {s : State} {t : Nat} (hd : s.dead = false) {fs : Fs} {i : Nat} {is : List Nat} {k : After} {r}
    (h : Ends t (s.to t (fs.logIno i) (.log is k)) r) : Ends t (s.to t fs (.log (i :: is) k)) r := by
  refine .step (by simpa) (b := s.to t fs (.logw i (fs.inodes i) is k)) (by simp only [go, to_pc, to_fs, to_to]) ?_
  exact .step (by simpa) (by simp only [go, to_pc, to_fs, to_to]; rfl) h

theorem Ends.logRet {s : State} {t : Nat} (hd : s.dead = false) {fs : Fs} {o : Ret} {s'}
    (h : s.fin t fs (.ret o) = s') : Ends t (s.to t fs (.log [] (.ret o))) (some s') :=
  .step (by simpa) (by simp only [go, to_pc, to_fs, resume, fin_to]; exact h) (.done rfl)

/-- The steps that create an inode. -/
theorem Ends.create {s : State} {t : Nat} (hd : s.dead = false) {fs : Fs} {p : List Name} {par : Nat} {new : New} {r}
    (h0 : ∀ name, p.getLast? = some name → fs.create par name (new.ino par) = none → r = none)
    (h1 : p.getLast? = none → r = none)
    (h2 : ∀ name fs', p.getLast? = some name → fs.create par name (new.ino par) = some fs' →
      Ends t (s.to t fs' (.log [] (new.rest p fs.next))) r) :
    Ends t (s.to t fs (.alloc p par new)) r := by
  refine .step (by simpa) (b := s.to t { fs with next := fs.next + 1 } (.enter p par new fs.next))
    (by simp only [go, to_pc, to_fs, to_to]) ?_
  cases hl : p.getLast? with
  | none =>
    rw [h1 hl]
    refine .step (b := (s.to t { fs with next := fs.next + 1 } (.enter p par new fs.next)).die) (by simpa) ?_ (.panic rfl)
    simp only [go, to_pc, to_fs, hl]
    cases fs.inodes par <;> rfl
  | some name =>
    cases hp : fs.inodes par with
    | none =>
      rw [h0 name hl (by simp [Fs.create, hp])]
      refine .step (b := (s.to t { fs with next := fs.next + 1 } (.enter p par new fs.next)).die) (by simpa) ?_ (.panic rfl)
      simp only [go, to_pc, to_fs, hp]
    | some pd =>
      by_cases hdir : pd.isDir = true
      · refine .step (by simpa) (by
          simp only [go, to_pc, to_fs, hp, hl, hdir, if_true, to_to]; rfl) ?_
        refine .step (by simpa) (by simp only [go, to_pc, to_fs, to_to]; rfl) ?_
        exact .log hd (.log hd (h2 name _ hl (by simp only [Fs.create, hp, hdir, if_true]; rfl)))
      · rw [h0 name hl (by simp [Fs.create, hp, hdir])]
        refine .step (b := (s.to t { fs with next := fs.next + 1 } (.enter p par new fs.next)).die) (by simpa) ?_ (.panic rfl)
        simp only [go, to_pc, to_fs, hp, hl, hdir, Bool.false_eq_true, if_false]

theorem atomic_conv {x : Fs × Ret} : atomic.conv x = if x.2 = .panic then none else some (x.1, .ret x.2) := rfl

/-- The result an uninterrupted call should have. -/
def want (s : State) (t : Nat) (c : Call) : Option State := (atomic s.fs c).map (fun x => s.done t x.1 x.2 c)

theorem ino_dir (mode : BitVec 32) (par : Nat) : (New.dir mode).ino par = fun num =>
    { kind := .dir, mode := sIFDIR ||| mode, size := 0, link := 3, ref := 0, ents := initEnts num par } := rfl
theorem ino_chr (mode : BitVec 32) (dev : BitVec 64) (par : Nat) : (New.chr mode dev).ino par = fun _ =>
    { kind := .chr (DevNo.devtuple dev), mode := mode, size := 0, link := 1, ref := 0, ents := [] } := rfl
theorem ino_file (mode : BitVec 32) (par : Nat) : (New.file mode).ino par = fun _ => newFile mode := rfl

variable {s : State} {t : Nat}

theorem solo_mkdir (hd : s.dead = false) (hroot : s.fs.inodes rootIno ≠ none) (p : List Name) (mode : BitVec 32) :
    Ends t (s.to t s.fs (begin (.mkdir p mode))) (want s t (.mkdir p mode)) := by
  refine .walk hd hroot ?_ ?_
  · intro h; simp [want, atomic, atomic.conv, Fs.mkdir, h]
  · intro x h
    obtain ⟨a, b⟩ := x
    simp only [arrive]
    cases a with
    | some i => simp only [want, atomic, atomic.conv, Fs.mkdir, h]; exact .done rfl
    | none =>
      cases b with
      | none => simp only [want, atomic, atomic.conv, Fs.mkdir, h]; exact .done rfl
      | some par =>
        dsimp only
        cases hm : saneMode mode with
        | false => simp only [want, atomic, atomic.conv, Fs.mkdir, h, hm]; exact .done rfl
        | true =>
          simp only [Bool.not_true, Bool.false_eq_true, if_false]
          refine .create hd ?_ ?_ ?_
          · intro name hl hc
            rw [ino_dir] at hc
            simp [want, atomic, atomic.conv, Fs.mkdir, h, hm, hl, hc]
          · intro hl; simp [want, atomic, atomic.conv, Fs.mkdir, h, hm, hl]
          · intro name fs' hl hc
            rw [ino_dir] at hc
            simp only [want, atomic, atomic.conv, Fs.mkdir, h, hm, hl, hc]
            exact .logRet hd rfl

theorem solo_mknod (hd : s.dead = false) (hroot : s.fs.inodes rootIno ≠ none) (p : List Name) (mode : BitVec 32)
    (dev : BitVec 64) :
    Ends t (s.to t s.fs (begin (.mknod p mode dev))) (want s t (.mknod p mode dev)) := by
  refine .walk hd hroot ?_ ?_
  · intro h; simp [want, atomic, atomic.conv, Fs.mknod, h]
  · intro x h
    obtain ⟨a, b⟩ := x
    simp only [arrive]
    cases a with
    | some i => simp only [want, atomic, atomic.conv, Fs.mknod, h]; exact .done rfl
    | none =>
      cases b with
      | none => simp only [want, atomic, atomic.conv, Fs.mknod, h]; exact .done rfl
      | some par =>
        dsimp only
        cases hm : saneMode mode with
        | false => simp only [want, atomic, atomic.conv, Fs.mknod, h, hm]; exact .done rfl
        | true =>
          simp only [Bool.not_true, Bool.false_eq_true, if_false]
          by_cases hc0 : mode &&& sIFCHR = 0
          · simp only [want, atomic, atomic.conv, Fs.mknod, h, hm, hc0, if_true]; exact .done rfl
          · simp only [hc0, if_false]
            refine .create hd ?_ ?_ ?_
            · intro name hl hc
              rw [ino_chr] at hc
              simp only [want, atomic, atomic.conv, Fs.mknod, h, hm, hl, hc, hc0, if_false]; rfl
            · intro hl; simp only [want, atomic, atomic.conv, Fs.mknod, h, hm, hl, hc0, if_false]; rfl
            · intro name fs' hl hc
              rw [ino_chr] at hc
              simp only [want, atomic, atomic.conv, Fs.mknod, h, hm, hl, hc, hc0]
              exact .logRet hd rfl

theorem solo_openGet (hd : s.dead = false) (p : List Name) (i : Nat) (flags : BitVec 32) :
    Ends t (s.to t s.fs (.openGet p i flags))
      (match s.fs.openExisting i flags with
       | (fs', .opened j z) => some (s.finOpen t fs' j z)
       | (_, .failed .panic) => none
       | (fs', .failed r) => some (s.fin t fs' (.ret r))) := by
  cases hx : s.fs.openExisting i flags with
  | mk fs' o =>
    cases o with
    | opened j z => exact .step (by simpa) (by simp only [go, to_pc, to_fs, hx, finOpen_to]) (.done rfl)
    | failed r =>
      cases r with
      | panic => exact .step (by simpa) (b := State.die _) (by simp only [go, to_pc, to_fs, hx]; rfl) (.panic rfl)
      | ok v => exact .step (by simpa) (by simp only [go, to_pc, to_fs, hx, fin_to]) (.done rfl)
      | err e => exact .step (by simpa) (by simp only [go, to_pc, to_fs, hx, fin_to]) (.done rfl)
      | blocked => exact .step (by simpa) (by simp only [go, to_pc, to_fs, hx, fin_to]) (.done rfl)

theorem solo_open (hd : s.dead = false) (hroot : s.fs.inodes rootIno ≠ none) (p : List Name) (flags mode : BitVec 32) :
    Ends t (s.to t s.fs (begin (.open p flags mode))) (want s t (.open p flags mode)) := by
  refine .walk hd hroot ?_ ?_
  · intro h; simp [want, atomic, atomic.conv, Fs.openP, h]
  · intro x h
    obtain ⟨a, b⟩ := x
    simp only [arrive]
    cases a with
    | some i =>
      have := solo_openGet (t := t) hd p i flags
      simp only [want, atomic, atomic.conv, Fs.openP, h]
      cases hx : s.fs.openExisting i flags with
      | mk fs' o =>
        rw [hx] at this
        cases o with
        | opened j z => exact this
        | failed r => cases r <;> exact this
    | none =>
      cases b with
      | none => simp only [want, atomic, atomic.conv, Fs.openP, h]; exact .done rfl
      | some par =>
        dsimp only
        by_cases h0 : flags &&& oCREAT = 0
        · simp only [want, atomic, atomic.conv, Fs.openP, h, h0, if_true]; exact .done rfl
        · simp only [h0, if_false]
          by_cases h1 : flags &&& sIFCHR = sIFCHR
          · simp only [want, atomic, atomic.conv, Fs.openP, h, h0, h1, if_true]; exact .done rfl
          · simp only [h1, if_false]
            cases hm : saneMode mode with
            | false => simp only [want, atomic, atomic.conv, Fs.openP, h, h0, h1, hm, if_false]; exact .done rfl
            | true =>
              simp only [Bool.not_true, Bool.false_eq_true, if_false]
              refine .create hd ?_ ?_ ?_
              · intro name hl hc
                rw [ino_file] at hc
                simp only [want, atomic, atomic.conv, Fs.openP, h, hm, hl, hc, h0, h1, if_false]; rfl
              · intro hl; simp only [want, atomic, atomic.conv, Fs.openP, h, hm, hl, h0, h1, if_false]; rfl
              · intro name fs' hl hc
                rw [ino_file] at hc
                simp only [want, atomic, atomic.conv, Fs.openP, h, hm, hl, hc, h0, h1, if_false]
                refine .step (by simpa) (by simp only [go, to_pc, to_fs, New.rest, resume, to_to]; rfl) ?_
                exact .step (by simpa) (by simp only [go, to_pc, to_fs, finOpen_to]; rfl) (.done rfl)

theorem solo_stat (hd : s.dead = false) (hroot : s.fs.inodes rootIno ≠ none) (p : List Name) :
    Ends t (s.to t s.fs (begin (.stat p))) (want s t (.stat p)) := by
  refine .walk hd hroot ?_ ?_
  · intro h; simp [want, atomic, Fs.stat, h]
  · intro x h
    obtain ⟨a, b⟩ := x
    simp only [arrive]
    cases a with
    | none => simp only [want, atomic, Fs.stat, h]; exact .done rfl
    | some i =>
      simp only [want, atomic, Fs.stat, h]
      cases hi : s.fs.inodes i with
      | none => exact .step (by simpa) (b := State.die _) (by simp only [go, to_pc, to_fs, hi]; rfl) (.panic rfl)
      | some nd => exact .step (by simpa) (by simp only [go, to_pc, to_fs, hi, fin_to]; rfl) (.done rfl)

theorem solo_chmod (hd : s.dead = false) (hroot : s.fs.inodes rootIno ≠ none) (p : List Name) (mode : BitVec 32) :
    Ends t (s.to t s.fs (begin (.chmod p mode))) (want s t (.chmod p mode)) := by
  refine .walk hd hroot ?_ ?_
  · intro h; simp [want, atomic, atomic.conv, Fs.chmod, h]
  · intro x h
    obtain ⟨a, b⟩ := x
    simp only [arrive]
    cases a with
    | none => simp only [want, atomic, atomic.conv, Fs.chmod, h]; exact .done rfl
    | some i =>
      dsimp only
      by_cases hm : mode &&& sIRWXA = mode
      · simp only [hm, if_true]
        cases hi : s.fs.inodes i with
        | none =>
          simp only [want, atomic, atomic.conv, Fs.chmod, h, Fs.chmodIno, hm, hi, if_true]
          exact .step (by simpa) (b := State.die _) (by simp only [go, to_pc, to_fs, hi]; rfl) (.panic rfl)
        | some nd =>
          simp only [want, atomic, atomic.conv, Fs.chmod, h, Fs.chmodIno, hm, hi, if_true]
          refine .step (by simpa) (by simp only [go, to_pc, to_fs, hi, to_to]; rfl) ?_
          cases hs : nd.isSock with
          | true => exact .logRet hd rfl
          | false => exact .log hd (.logRet hd rfl)
      · simp only [hm, if_false, want, atomic, atomic.conv, Fs.chmod, h, Fs.chmodIno]; exact .done rfl

theorem solo_rename (hd : s.dead = false) (hroot : s.fs.inodes rootIno ≠ none) (old new : List Name) :
    Ends t (s.to t s.fs (begin (.rename old new))) (want s t (.rename old new)) := by
  refine .walk hd hroot ?_ ?_
  · intro h; simp [want, atomic, atomic.conv, Fs.rename, h]
  · intro x h
    obtain ⟨a, b⟩ := x
    simp only [arrive]
    cases a with
    | none => simp only [want, atomic, atomic.conv, Fs.rename, h]; exact .done rfl
    | some i =>
      cases b with
      | none => simp only [want, atomic, atomic.conv, Fs.rename, h]; exact .done rfl
      | some par =>
        dsimp only
        refine .walk hd hroot ?_ ?_
        · intro h'; simp [want, atomic, atomic.conv, Fs.rename, h, h']
        · intro y h'
          obtain ⟨a', b'⟩ := y
          simp only [arrive]
          by_cases hb : b' = some par
          · simp only [hb, ne_eq, not_true_eq_false, if_false]
            simp only [want, atomic, atomic.conv, Fs.rename, h, h', hb, ne_eq, not_true_eq_false, if_false]
            cases hp : s.fs.inodes par with
            | none => exact .step (by simpa) (b := State.die _) (by simp only [go, to_pc, to_fs, hp]; rfl) (.panic rfl)
            | some pd =>
              cases ho : old.getLast? with
              | none => exact .step (by simpa) (b := State.die _) (by simp only [go, to_pc, to_fs, hp, ho]; rfl) (.panic rfl)
              | some o =>
                cases hn : new.getLast? with
                | none =>
                  exact .step (by simpa) (b := State.die _) (by simp only [go, to_pc, to_fs, hp, ho, hn]; rfl) (.panic rfl)
                | some n =>
                  dsimp only
                  cases hdir : pd.isDir with
                  | true =>
                    refine .step (by simpa) (by simp only [go, to_pc, to_fs, hp, ho, hn, hdir, if_true, to_to]; rfl) ?_
                    refine .log hd ?_
                    refine .step (by simpa) (by simp only [go, to_pc, to_fs, resume, to_to]; rfl) ?_
                    exact .step (by simpa) (by simp only [go, to_pc, to_fs, fin_to]; rfl) (.done rfl)
                  | false =>
                    refine .step (by simpa) (by
                      simp only [go, to_pc, to_fs, hp, ho, hn, hdir, Bool.false_eq_true, if_false, to_to]; rfl) ?_
                    exact .step (by simpa) (by simp only [go, to_pc, to_fs, fin_to]; rfl) (.done rfl)
          · simp only [ne_eq, hb, not_false_eq_true, if_true, want, atomic, atomic.conv, Fs.rename, h, h']
            exact .done rfl

theorem solo_link (hd : s.dead = false) (hroot : s.fs.inodes rootIno ≠ none) (old new : List Name) (hne : new ≠ []) :
    Ends t (s.to t s.fs (begin (.link old new))) (want s t (.link old new)) := by
  obtain ⟨name, hl⟩ : ∃ n, new.getLast? = some n := by
    cases hn : new.getLast? with
    | none => exact absurd (List.getLast?_eq_none_iff.1 hn) hne
    | some n => exact ⟨n, rfl⟩
  refine .walk hd hroot ?_ ?_
  · intro h; simp [want, atomic, atomic.conv, Fs.link, h, hl]
  · intro x h
    obtain ⟨a, b⟩ := x
    simp only [arrive]
    cases a with
    | none => simp only [want, atomic, atomic.conv, Fs.link, h, hl]; exact .done rfl
    | some i =>
      dsimp only
      cases hi : s.fs.inodes i with
      | none =>
        simp only [want, atomic, atomic.conv, Fs.link, h, hl, hi]
        exact .step (by simpa) (b := State.die _) (by simp only [go, to_pc, to_fs, hi]; rfl) (.panic rfl)
      | some nd =>
        cases hdir : nd.isDir with
        | true =>
          simp only [want, atomic, atomic.conv, Fs.link, h, hl, hi, hdir]
          exact .step (by simpa) (by simp only [go, to_pc, to_fs, hi, hdir, if_true, fin_to]; rfl) (.done rfl)
        | false =>
          simp only [want, atomic, atomic.conv, Fs.link, h, hl, hi, hdir, Bool.false_eq_true, if_false]
          refine .step (by simpa) (by
            simp only [go, to_pc, to_fs, hi, hdir, Bool.false_eq_true, if_false, to_to]; rfl) ?_
          refine .walk hd ?_ ?_ ?_
          · simp only [Fs.set, upd_apply]; split
            · simp
            · exact hroot
          · intro h'; simp only [h']; rfl
          · intro y h'
            obtain ⟨a', b'⟩ := y
            simp only [arrive, h']
            have hset : (s.fs.set i (some { nd with link := nd.link + 1 })).inodes i
                = some { nd with link := nd.link + 1 } := by simp [Fs.set]
            have hdir' : ({ nd with link := nd.link + 1 } : Inode).isDir = false := hdir
            have undo : ∀ e, Ends t ({ s with fs := s.fs.set i (some { nd with link := nd.link + 1 }) }.to t
                (s.fs.set i (some { nd with link := nd.link + 1 })) (.linkUndo old i e))
                (some (s.fin t ((s.fs.set i (some { nd with link := nd.link + 1 })).set i
                  (some { nd with link := nd.link + 1 - 1 })) (.ret (.err e)))) := by
              intro e
              refine .step (by simpa) (by
                simp only [go, to_pc, to_fs, hset, hdir', Bool.false_eq_true, false_or, Nat.add_one_ne_zero, if_false, fin_to]
                rfl) (.done rfl)
            cases a' with
            | some j => exact undo _
            | none =>
              cases b' with
              | none => exact undo _
              | some par =>
                dsimp only
                rcases Option.eq_none_or_eq_some ((s.fs.set i (some { nd with link := nd.link + 1 })).inodes par)
                  with hp | ⟨pd, hp⟩
                · simp only [hp]
                  exact .step (by simpa) (b := State.die _) (by simp only [go, to_pc, to_fs, hp]; rfl) (.panic rfl)
                · simp only [hp]
                  cases hpd : pd.isDir with
                  | true =>
                    refine .step (by simpa) (by simp only [go, to_pc, to_fs, hp, hl, hpd, if_true, to_to]; rfl) ?_
                    exact .log hd (.log hd (.logRet hd rfl))
                  | false =>
                    exact .step (by simpa) (b := State.die _) (by
                      simp only [go, to_pc, to_fs, hp, hl, hpd, Bool.false_eq_true, if_false]; rfl) (.panic rfl)

/-- The name to be removed counts in the link count of its file (so the count does not go below zero). -/
def NoUnder (fs : Fs) : Call → Prop
  | .unlink p => ∀ i par nd, fs.walk p = some (some i, par) → fs.inodes i = some nd → nd.isDir = false → nd.link ≠ 0
  | _ => True

theorem solo_unlink (hd : s.dead = false) (hroot : s.fs.inodes rootIno ≠ none) (p : List Name)
    (hu : NoUnder s.fs (.unlink p)) :
    Ends t (s.to t s.fs (begin (.unlink p))) (want s t (.unlink p)) := by
  refine .walk hd hroot ?_ ?_
  · intro h; simp [want, atomic, atomic.conv, Fs.unlink, h]
  · intro x h
    obtain ⟨a, b⟩ := x
    simp only [arrive]
    cases a with
    | none => simp only [want, atomic, atomic.conv, Fs.unlink, h]; exact .done rfl
    | some i =>
      cases b with
      | none => simp only [want, atomic, atomic.conv, Fs.unlink, h]; exact .done rfl
      | some par =>
        dsimp only
        cases hi : s.fs.inodes i with
        | none =>
          simp only [want, atomic, atomic.conv, Fs.unlink, h, hi]
          exact .step (by simpa) (b := State.die _) (by simp only [go, to_pc, to_fs, hi]; rfl) (.panic rfl)
        | some nd =>
          cases hdir : nd.isDir with
          | true =>
            simp only [want, atomic, atomic.conv, Fs.unlink, h, hi, hdir]
            exact .step (by simpa) (by simp only [go, to_pc, to_fs, hi, hdir, if_true, fin_to]; rfl) (.done rfl)
          | false =>
            have hl := hu i _ nd h hi hdir
            refine .step (by simpa) (by
              simp only [go, to_pc, to_fs, hi, hdir, hl, Bool.false_eq_true, if_false, to_to]; rfl) ?_
            obtain ⟨fs2, r, hr⟩ : ∃ fs2 r, (s.fs.set i (some { nd with link := nd.link - 1 })).removeFromParent par p
                = (fs2, r) := ⟨_, _, rfl⟩
            have hdisk : fs2.disk i = s.fs.disk i := by
              have : ((s.fs.set i (some { nd with link := nd.link - 1 })).removeFromParent par p).1.disk i
                  = s.fs.disk i := by
                unfold Fs.removeFromParent; (repeat' split) <;> rfl
              rw [hr] at this; exact this
            simp only [want, atomic, atomic.conv, Fs.unlink, h, hi, hdir, hr, Bool.false_eq_true, if_false]
            cases r with
            | panic => exact .step (by simpa) (b := State.die _) (by simp only [go, to_pc, to_fs, hr]; rfl) (.panic rfl)
            | err e => exact .step (by simpa) (by simp only [go, to_pc, to_fs, hr, fin_to]; rfl) (.done rfl)
            | blocked => exact .step (by simpa) (by simp only [go, to_pc, to_fs, hr, fin_to]; rfl) (.done rfl)
            | ok v =>
              refine .step (by simpa) (by simp only [go, to_pc, to_fs, hr, to_to]; rfl) ?_
              have logs : ∀ fs4 : Fs, Ends t (s.to t fs4 (.log (if nd.kind = .sock then [] else [par, i]) (.ret (.ok 0))))
                  (some (s.fin t (if nd.isSock then fs4 else (fs4.logIno par).logIno i) (.ret (.ok 0)))) := by
                intro fs4
                by_cases hs : nd.kind = .sock
                · simp only [hs, Inode.isSock, if_true]; exact .logRet hd rfl
                · have hs' : nd.isSock = false := by
                    unfold Inode.isSock; split
                    · rename_i e; exact absurd e hs
                    · rfl
                  simp only [hs, hs', if_false, Bool.false_eq_true]
                  exact .log hd (.log hd (.logRet hd rfl))
              have dom : ∀ fs3 : Fs, Ends t (s.to t fs3 (.unlinkDom p i par nd.kind))
                  (some (s.fin t (if nd.isSock then { fs3 with dom := fs3.dom.filter (· ≠ p) } else
                    (({ fs3 with dom := fs3.dom.filter (· ≠ p) } : Fs).logIno par).logIno i) (.ret (.ok 0)))) := by
                intro fs3
                exact .step (by simpa) (by simp only [go, to_pc, to_fs, to_to]) (logs _)
              by_cases hz : nd.link - 1 = 0 ∧ nd.ref = 0
              · have e1 : decide (nd.link - 1 = 0 ∧ nd.ref = 0) = true := by simp [hz]
                simp only [e1, if_true]
                by_cases hk : nd.kind = .file
                · have hf : nd.isFile = true := by simp [Inode.isFile, hk]
                  have hs : nd.isSock = false := by simp [Inode.isSock, hk]
                  cases hdk : s.fs.disk i with
                  | none =>
                    simp only [hz, hf, hs, hdisk, hdk, and_self, if_true]
                    exact .step (by simpa) (b := State.die _) (by
                      simp only [go, to_pc, to_fs, hk, if_true, hdisk, hdk]; rfl) (.panic rfl)
                  | some dk =>
                    refine .step (by simpa) (by
                      simp only [go, to_pc, to_fs, hk, if_true, hdisk, hdk, to_to]; rfl) ?_
                    have := dom ((fs2.set i none).rmHost i)
                    rw [hk] at this
                    simp only [hz, hf, hs, hdisk, hdk, and_self, if_true, Bool.false_eq_true, if_false, reduceCtorEq,
                      and_false] at this ⊢
                    exact this
                · have hf : nd.isFile = false := by
                    unfold Inode.isFile; split
                    · rename_i e; exact absurd e hk
                    · rfl
                  refine .step (by simpa) (by simp only [go, to_pc, to_fs, hk, if_false, to_to]; rfl) ?_
                  have := dom (fs2.set i none)
                  simp only [hz, hf, and_self, if_true, Bool.false_eq_true, if_false, false_and] at this ⊢
                  cases hs : nd.isSock <;> simp only [hs, Bool.false_eq_true, if_true, if_false] at this ⊢ <;> exact this
              · have e1 : decide (nd.link - 1 = 0 ∧ nd.ref = 0) = false := by simp [hz]
                have hz' : ∀ q : Prop, ¬ (nd.isFile = true ∧ nd.link - 1 = 0 ∧ nd.ref = 0 ∧ q) :=
                  fun q x => hz ⟨x.2.1, x.2.2.1⟩
                have := dom fs2
                simp only [e1, Bool.false_eq_true, if_false]
                simp only [hz, hz', if_false] at this ⊢
                cases hs : nd.isSock <;> simp only [hs, Bool.false_eq_true, if_true, if_false] at this ⊢ <;> exact this

theorem solo_rmdir (hd : s.dead = false) (hroot : s.fs.inodes rootIno ≠ none) (p : List Name) (hp : GoodPath p)
    (hT : Tree s.fs.inodes s.fs.next) :
    Ends t (s.to t s.fs (begin (.rmdir p))) (want s t (.rmdir p)) := by
  refine .walk hd hroot ?_ ?_
  · intro h; simp [want, atomic, atomic.conv, Fs.rmdir, h]
  · intro x h
    obtain ⟨x', hr', hlook⟩ := look hT p hp
    rw [h] at hr'; cases hr'
    obtain ⟨a, b⟩ := x
    simp only [arrive]
    cases a with
    | none => simp only [want, atomic, atomic.conv, Fs.rmdir, h]; exact .done rfl
    | some i =>
      cases b with
      | none => simp only [want, atomic, atomic.conv, Fs.rmdir, h]; exact .done rfl
      | some par =>
        dsimp only
        obtain ⟨pd, nd, hpar, hi⟩ : ∃ pd nd, s.fs.inodes par = some pd ∧ s.fs.inodes i = some nd := by
          cases hlook with
          | found _ _ _ hpar _ _ _ _ hi => exact ⟨_, _, hpar, hi⟩
        by_cases h1 : pd.isDir = true ∧ pd.mode &&& sIWALL = 0
        · simp only [want, atomic, atomic.conv, Fs.rmdir, h, hpar, h1, and_self, if_true]
          exact .step (by simpa) (by
            simp only [go, to_pc, to_fs, hpar, h1, and_self, if_true, fin_to]; rfl) (.done rfl)
        · simp only [want, atomic, atomic.conv, Fs.rmdir, h, hpar, h1, hi, if_false]
          refine .step (by simpa) (by simp only [go, to_pc, to_fs, hpar, h1, if_false, to_to]; rfl) ?_
          cases hdir : nd.isDir with
          | false =>
            exact .step (by simpa) (by
              simp only [go, to_pc, to_fs, hi, hdir, Bool.false_eq_true, if_false, fin_to]; rfl) (.done rfl)
          | true =>
            by_cases h2 : nd.link > 3
            · simp only [h2, if_true]
              exact .step (by simpa) (by simp only [go, to_pc, to_fs, hi, hdir, h2, if_true, fin_to]; rfl) (.done rfl)
            · cases hm : modeIsDir nd.mode with
              | false =>
                simp only [h2, if_true, if_false, Bool.not_false]
                exact .step (by simpa) (b := State.die _) (by
                  simp only [go, to_pc, to_fs, hi, hdir, h2, hm, Bool.not_false, if_true, if_false]; rfl) (.panic rfl)
              | true =>
                by_cases h3 : nd.mode &&& sIWALL = 0
                · simp only [h2, h3, if_true, if_false, Bool.not_true, Bool.false_eq_true]
                  exact .step (by simpa) (by
                    simp only [go, to_pc, to_fs, hi, hdir, h2, hm, h3, Bool.not_true, Bool.false_eq_true, if_true,
                      if_false, fin_to]; rfl) (.done rfl)
                · simp only [h2, h3, if_true, if_false, Bool.not_true, Bool.false_eq_true]
                  refine .step (by simpa) (by
                    simp only [go, to_pc, to_fs, hi, hdir, h2, hm, h3, Bool.not_true, Bool.false_eq_true, if_true,
                      if_false, to_to]; rfl) ?_
                  obtain ⟨fs1, hfs1⟩ : ∃ fs1, (if nd.ref = 0 then s.fs.set i (some { nd with link := 2 }) else s.fs) = fs1 :=
                    ⟨_, rfl⟩
                  rw [hfs1]
                  have hi1 : fs1.inodes i ≠ none := by
                    rw [← hfs1]; split
                    · simp [Fs.set]
                    · rw [hi]; simp
                  obtain ⟨fs2, r, hr⟩ : ∃ fs2 r, fs1.removeFromParent par p = (fs2, r) := ⟨_, _, rfl⟩
                  have hi2 : fs2.inodes i ≠ none := by
                    have : (fs1.removeFromParent par p).1.inodes i ≠ none := by
                      unfold Fs.removeFromParent
                      (repeat' split) <;> first
                        | exact hi1
                        | (simp only [Fs.set, upd_apply]; split
                           · simp
                           · exact hi1)
                    rw [hr] at this; exact this
                  simp only [hr]
                  cases r with
                  | panic => exact .step (by simpa) (b := State.die _) (by simp only [go, to_pc, to_fs, hr]; rfl) (.panic rfl)
                  | err e => exact .step (by simpa) (by simp only [go, to_pc, to_fs, hr, fin_to]; rfl) (.done rfl)
                  | blocked => exact .step (by simpa) (by simp only [go, to_pc, to_fs, hr, fin_to]; rfl) (.done rfl)
                  | ok v =>
                    refine .step (by simpa) (by simp only [go, to_pc, to_fs, hr, to_to]; rfl) ?_
                    by_cases h4 : nd.ref = 0
                    · simp only [h4, decide_true, if_true]
                      obtain ⟨x, hx⟩ := Option.ne_none_iff_exists'.1 hi2
                      refine .step (by simpa) (by simp only [go, to_pc, to_fs, hx, to_to]; rfl) ?_
                      exact .log hd (.log hd (.logRet hd rfl))
                    · simp only [h4, decide_false, Bool.false_eq_true, if_false]
                      exact .log hd (.log hd (.logRet hd rfl))

/-- A new `held` under the steps of a call. -/
def State.holds (s : State) (h : Nat → Nat) : State := { s with held := h }

theorem solo_close (hd : s.dead = false) (i : Nat) :
    Ends t ((s.holds (upd s.held i (s.held i - 1))).to t s.fs (begin (.close i))) (want s t (.close i)) := by
  have hd' : (s.holds (upd s.held i (s.held i - 1))).dead = false := hd
  have hw : ∀ fs o, s.done t fs o (.close i) = (s.holds (upd s.held i (s.held i - 1))).fin t fs o := fun _ _ => rfl
  have hfs : (s.holds (upd s.held i (s.held i - 1))).fs = s.fs := rfl
  generalize s.holds (upd s.held i (s.held i - 1)) = z at hd' hw hfs
  simp only [begin]
  cases hi : s.fs.inodes i with
  | none =>
    simp only [want, atomic, atomic.conv, Fs.closeIno, hi]
    exact .step (by simpa) (b := State.die _) (by simp only [go, to_pc, to_fs, hi]; rfl) (.panic rfl)
  | some nd =>
    cases hk : nd.kind with
    | sock =>
      simp only [want, atomic, atomic.conv, Fs.closeIno, hi, hk]
      exact .step (by simpa) (b := State.die _) (by simp only [go, to_pc, to_fs, hi, hk]; rfl) (.panic rfl)
    | file =>
      by_cases h1 : nd.ref - 1 = 0
      · cases hf : s.fs.fobj i with
        | none =>
          simp only [want, atomic, atomic.conv, Fs.closeIno, hi, hk, h1, hf, if_true]
          exact .step (by simpa) (b := State.die _) (by
            simp only [go, to_pc, to_fs, hi, hk, h1, hf, if_true]; rfl) (.panic rfl)
        | some v =>
          by_cases h2 : nd.link = 0
          · refine .step (by simpa) (by simp only [go, to_pc, to_fs, hi, hk, h1, h2, hf, if_true, to_to]; rfl) ?_
            cases hdk : s.fs.disk i with
            | none =>
              simp only [want, atomic, atomic.conv, Fs.closeIno, hi, hk, h1, hf, h2, hdk, if_true]
              exact .step (by simpa) (b := State.die _) (by
                simp only [go, to_pc, to_fs, if_true, Fs.set, hdk]; rfl) (.panic rfl)
            | some d =>
              simp only [want, atomic, atomic.conv, Fs.closeIno, hi, hk, h1, hf, h2, hdk, if_true]
              refine .step (by simpa) (by simp only [go, to_pc, to_fs, if_true, Fs.set, hdk, to_to]; rfl) ?_
              exact .log hd' (.logRet hd' (hw _ _).symm)
          · simp only [want, atomic, atomic.conv, Fs.closeIno, hi, hk, h1, hf, h2, if_true, if_false]
            exact .step (by simpa) (by
              simp only [go, to_pc, to_fs, hi, hk, h1, h2, hf, if_true, if_false, fin_to]) (.done (hw _ _).symm)
      · simp only [want, atomic, atomic.conv, Fs.closeIno, hi, hk, h1, if_false]
        exact .step (by simpa) (by simp only [go, to_pc, to_fs, hi, hk, h1, if_false, fin_to]) (.done (hw _ _).symm)
    | dir =>
      cases hf : (s.fs.fobj i).isSome with
      | true =>
        simp only [want, atomic, atomic.conv, Fs.closeIno, hi, hk, hf, if_true]
        exact .step (by simpa) (by simp only [go, to_pc, to_fs, hi, hk, hf, if_true, fin_to]) (.done (hw _ _).symm)
      | false =>
        by_cases h1 : nd.link = 2 ∧ nd.ref - 1 = 0
        · simp only [want, atomic, atomic.conv, Fs.closeIno, hi, hk, hf, h1, and_self, if_true, Bool.false_eq_true, if_false]
          refine .step (by simpa) (by
            simp only [go, to_pc, to_fs, hi, hk, hf, h1, and_self, if_true, Bool.false_eq_true, if_false, to_to]; rfl) ?_
          refine .step (by simpa) (by
            simp only [go, to_pc, to_fs, reduceCtorEq, if_false, to_to]; rfl) ?_
          exact .log hd' (.logRet hd' (hw _ _).symm)
        · simp only [want, atomic, atomic.conv, Fs.closeIno, hi, hk, hf, h1, Bool.false_eq_true, if_false]
          exact .step (by simpa) (by
            simp only [go, to_pc, to_fs, hi, hk, hf, h1, Bool.false_eq_true, if_false, fin_to]) (.done (hw _ _).symm)
    | chr dev =>
      cases hf : (s.fs.fobj i).isSome with
      | true =>
        simp only [want, atomic, atomic.conv, Fs.closeIno, hi, hk, hf, if_true]
        exact .step (by simpa) (by simp only [go, to_pc, to_fs, hi, hk, hf, if_true, fin_to]) (.done (hw _ _).symm)
      | false =>
        by_cases h1 : nd.link = 0 ∧ nd.ref - 1 = 0
        · simp only [want, atomic, atomic.conv, Fs.closeIno, hi, hk, hf, h1, and_self, if_true, Bool.false_eq_true, if_false]
          refine .step (by simpa) (by
            simp only [go, to_pc, to_fs, hi, hk, hf, h1, and_self, if_true, Bool.false_eq_true, if_false, to_to]; rfl) ?_
          refine .step (by simpa) (by
            simp only [go, to_pc, to_fs, reduceCtorEq, if_false, to_to]; rfl) ?_
          exact .log hd' (.logRet hd' (hw _ _).symm)
        · simp only [want, atomic, atomic.conv, Fs.closeIno, hi, hk, hf, h1, Bool.false_eq_true, if_false]
          refine .step (by simpa) (by
            simp only [go, to_pc, to_fs, hi, hk, hf, h1, Bool.false_eq_true, if_false, to_to]; rfl) ?_
          exact .log hd' (.logRet hd' (hw _ _).symm)

/-! ## The theorem -/

/-- What may be said of the file system when a call begins: it is well formed, and the paths are
normalised. -/
structure Sound (fs : Fs) (c : Call) : Prop where
  tree : Tree fs.inodes fs.next
  good : ∀ p ∈ (match c with
    | .mkdir p _ | .mknod p _ _ | .open p _ _ | .unlink p | .rmdir p | .stat p | .chmod p _ => [p]
    | .link p q | .rename p q => [p, q]
    | .close _ => []), GoodPath p

theorem noUnder {fs : Fs} {c : Call} (h : Sound fs c) : NoUnder fs c := by
  cases c with
  | unlink p =>
    intro i par nd hw hi hdir
    obtain ⟨r, hr, hl⟩ := look h.tree p (h.good p (by simp))
    rw [hw] at hr; cases hr
    cases hl with
    | root =>
      obtain ⟨x, hx, hxd⟩ := h.tree.root
      rw [hx] at hi; cases hi; rw [hxd] at hdir; cases hdir
    | found _ _ _ hp _ _ hf hg hi' =>
      rw [h.tree.flink hi hdir]
      have := nameCount_zero h.tree (i := i) (hd := hp) (hm := entGet_mem hf)
      intro hz
      exact this hz (Good.proper hg)
  | _ => trivial

/-- C65.  A call during which no other thread takes a step has exactly the effect and the answer
that the call has in `Verif.Fs`: there is a number of steps after which the thread is at rest again, the file system is
the one the uncut call leaves, the answer is its answer, and no other thread was touched; or, if the
uncut call panics, so does the cut one. -/
theorem solo {s : State} {t : Nat} (hd : s.dead = false) (hpc : s.pc t = .idle) {c : Call} (h : Sound s.fs c) :
    ∃ n, match atomic s.fs c with
      | some (fs', o) => run s (.start t c :: List.replicate n (.go t)) = s.done t fs' o c
      | none => (run s (.start t c :: List.replicate n (.go t))).dead = true := by
  have hrun : ∀ n z, run z (List.replicate n (.go t)) = goes t n z := by
    intro n
    induction n with
    | zero => intro z; rfl
    | succ n ih => intro z; simp only [List.replicate_succ, run, goes, ih]
  have hroot : s.fs.inodes rootIno ≠ none := by
    obtain ⟨x, hx, -⟩ := h.tree.root; rw [hx]; simp
  by_cases hbad : ∃ old, c = .link old []
  · obtain ⟨old, rfl⟩ := hbad
    refine ⟨0, ?_⟩
    simp [atomic, atomic.conv, Fs.link, run, step, hd, hpc]
  · obtain ⟨z, hz⟩ : ∃ z : State, z = { s with call := upd s.call t (some c) } := ⟨_, rfl⟩
    have hzd : z.dead = false := by rw [hz]; exact hd
    have hfs : z.fs = s.fs := by rw [hz]
    have hwant : want z t c = want s t c := by
      subst hz
      simp only [want]
      congr 1
      funext x
      cases c <;> cases x.2 <;> simp [State.done, State.fin, State.finOpen, upd_upd]
    have hst : step s (.start t c) = s.begin t c := by
      simp only [step, hd, hpc, Bool.false_eq_true, if_false, if_true]
      split
      · exact absurd ⟨_, rfl⟩ hbad
      · rfl
    have hends : Ends t (s.begin t c) (want z t c) := by
      have hrz : z.fs.inodes rootIno ≠ none := hfs ▸ hroot
      have hb : (∀ i, c ≠ .close i) → s.begin t c = z.to t z.fs (begin c) := by
        intro hc
        subst hz
        cases c <;> first | rfl | exact absurd rfl (hc _)
      cases hc : c with
      | mkdir p m => subst hc; rw [hb (by simp)]; exact solo_mkdir hzd hrz p m
      | mknod p m d => subst hc; rw [hb (by simp)]; exact solo_mknod hzd hrz p m d
      | «open» p f m => subst hc; rw [hb (by simp)]; exact solo_open hzd hrz p f m
      | link p q =>
        subst hc; rw [hb (by simp)]
        exact solo_link hzd hrz p q (fun e => hbad ⟨p, by rw [e]⟩)
      | unlink p => subst hc; rw [hb (by simp)]; exact solo_unlink hzd hrz p (hfs ▸ noUnder h)
      | rmdir p =>
        subst hc; rw [hb (by simp)]
        exact solo_rmdir hzd hrz p (h.good p (by simp)) (hfs ▸ h.tree)
      | rename p q => subst hc; rw [hb (by simp)]; exact solo_rename hzd hrz p q
      | stat p => subst hc; rw [hb (by simp)]; exact solo_stat hzd hrz p
      | chmod p m => subst hc; rw [hb (by simp)]; exact solo_chmod hzd hrz p m
      | close i =>
        subst hc
        have : s.begin t (.close i) = (z.holds (upd z.held i (z.held i - 1))).to t z.fs (begin (.close i)) := by
          subst hz; rfl
        rw [this]; exact solo_close hzd i
    rw [hwant] at hends
    cases ha : atomic s.fs c with
    | none =>
      simp only [want, ha, Option.map_none] at hends
      obtain ⟨s', ⟨n, hn⟩, hdead⟩ := hends
      refine ⟨n, ?_⟩
      simp only [run, hst, hrun, hn]; exact hdead
    | some x =>
      obtain ⟨fs', o⟩ := x
      simp only [want, ha, Option.map_some] at hends
      obtain ⟨n, hn⟩ := hends
      refine ⟨n, ?_⟩
      simp only [run, hst, hrun, hn]

end Verif.NameConc
