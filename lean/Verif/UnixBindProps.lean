import Verif.UnixSockProps
import Verif.NsCalls

/-!
# Names of unix sockets: C54

The file system is any that satisfies `Tree`, which C17 proves of every reachable one, and `tree_step` shows that the calls on unix
sockets keep.
-/

set_option linter.unusedSimpArgs false

namespace Verif.UnixSock

open Verif.Path Verif.Fs
open Verif.Kernel (names CwdOk)

/-! ## Specification -/

/-- The address leads to inode `i`, in a process with the working directory `cwd`. -/
def Leads (s : State) (cwd a : Str) (i : Nat) : Prop := Walk s.fs.inodes rootIno (names (normpath cwd a)) i

/-- `n` is the name of `j` in directory `d`. -/
def Named (s : State) (d : Nat) (n : Name) (j : Nat) : Prop := ∃ nd, s.fs.inodes d = some nd ∧ (n, j) ∈ nd.ents

/-- The address is that of the name `n` in the existing directory `par`. -/
def Place (s : State) (cwd a : Str) (par : Nat) (n : Name) : Prop :=
  ∃ ps pd, names (normpath cwd a) = ps ++ [n] ∧ Walk s.fs.inodes rootIno ps par ∧ s.fs.inodes par = some pd ∧ pd.isDir

/-- Descriptor `d` is open and not waiting, and its socket has the address `la`. -/
def HasAddr (s : State) (d : Nat) (la : Option Str) : Prop :=
  ∃ fd, s.fds d = some fd ∧ (s.handles fd.h).waiting = false ∧ (s.handles fd.h).laddr = la

/-! ## The file system part -/

theorem pathOf_good {cwd : Str} (h : CwdOk cwd) (a : Str) : ∀ n ∈ pathOf cwd a, Good n :=
  (Verif.Kernel.path_spec (cg := ⟨fun _ => none, cwd, 0⟩) h a).1

/-- The file system with a new socket `n` in directory `par`. -/
def grown (fs : Fs) (p : List Name) (par : Nat) (pd : Inode) (n : Name) : Fs :=
  { fs with
    inodes := upd (upd fs.inodes par (some { pd with ents := entPut pd.ents n fs.next, link := pd.link + 1 })) fs.next
      (some { kind := .sock, mode := sIFSOCK ||| ((pd.mode ||| sFileType) &&& sIRWXA), size := 0, link := 1, ref := 1, ents := [] })
    next := fs.next + 1
    dom := p :: fs.dom.filter (· ≠ p) }

theorem bindName_cases {fs : Fs} (T : Tree fs.inodes fs.next) {p : List Name} (hp : ∀ n ∈ p, Good n) (a : Str) :
    (a = [] ∧ bindName fs a p = (fs, .err .ENOENT, none)) ∨
    (a ≠ [] ∧ (∃ i, Walk fs.inodes rootIno p i) ∧ bindName fs a p = (fs, .err .EADDRINUSE, none)) ∨
    (a ≠ [] ∧ (∀ i, ¬ Walk fs.inodes rootIno p i) ∧ ∃ ps n par pd, p = ps ++ [n] ∧ Walk fs.inodes rootIno ps par ∧
      fs.inodes par = some pd ∧ pd.isDir ∧ Live fs.inodes par ∧ entGet pd.ents n = none ∧ Good n ∧
      bindName fs a p = (grown fs p par pd n, .ok 0, some fs.next)) ∨
    (a ≠ [] ∧ (∀ i, ¬ Walk fs.inodes rootIno p i) ∧ (∀ ps n par pd, p = ps ++ [n] → Walk fs.inodes rootIno ps par →
      fs.inodes par = some pd → pd.isDir = false) ∧ bindName fs a p = (fs, .err .ENOENT, none)) := by
  by_cases ha : a = []
  · left; subst ha; exact ⟨rfl, rfl⟩
  have hl : ¬ a.length = 0 := by simpa using ha
  obtain ⟨r, hr, hlk⟩ := look T p hp
  cases hlk with
  | root e => right; left; refine ⟨ha, ⟨rootIno, by rw [e]; exact .here _⟩, ?_⟩; simp only [bindName, hl, if_false, hr]
  | found e w w' g1 g2 g3 g4 g5 g6 g7 g8 g9 => right; left; refine ⟨ha, ⟨_, w'⟩, ?_⟩; simp only [bindName, hl, if_false, hr]
  | free e w g1 g2 g3 g4 g5 g6 =>
    right; right; left
    refine ⟨ha, g6, _, _, _, _, e, w, g1, g2, g3, g4, g5, ?_⟩
    have hlast := congrArg List.getLast? e
    rw [getLast_snoc] at hlast
    simp only [bindName, hl, if_false, hr, hlast, g1, g2, if_true, grown]
  | gone g1 g2 g3 => right; right; right; refine ⟨ha, g3, g2, ?_⟩; simp only [bindName, hl, if_false, hr]

theorem tree_grown {fs : Fs} (T : Tree fs.inodes fs.next) {p : List Name} {par : Nat} {pd : Inode} {n : Name}
    (g1 : fs.inodes par = some pd) (g2 : pd.isDir) (g3 : Live fs.inodes par) (g4 : entGet pd.ents n = none) (g5 : Good n) :
    Tree (grown fs p par pd n).inodes (grown fs p par pd n).next :=
  T.create g1 g2 g3 g5 g4 ⟨rfl, rfl, rfl⟩ (.inl ⟨rfl, rfl, rfl⟩)

theorem next_free {fs : Fs} (T : Tree fs.inodes fs.next) : fs.inodes fs.next = none := by
  cases h : fs.inodes fs.next with
  | none => rfl
  | some x => exact absurd (T.bound h) (Nat.lt_irrefl _)

theorem tree_bindName {fs : Fs} (T : Tree fs.inodes fs.next) {p : List Name} (hp : ∀ n ∈ p, Good n) (a : Str) :
    Tree (bindName fs a p).1.inodes (bindName fs a p).1.next := by
  rcases bindName_cases T hp a with ⟨-, e⟩ | ⟨-, -, e⟩ | ⟨-, -, ps, n, par, pd, -, -, g1, g2, g3, g4, g5, e⟩ | ⟨-, -, -, e⟩
  · rw [e]; exact T
  · rw [e]; exact T
  · rw [e]; exact tree_grown T g1 g2 g3 g4 g5
  · rw [e]; exact T

/-! ## The calls keep the file system well formed -/

/-- The working directory given to a call is an absolute canonical path. -/
def CwdsOk : Op → Prop
  | .bind _ cwd _ => CwdOk cwd
  | .connect _ cwd _ => CwdOk cwd
  | .accept _ _ cwd => CwdOk cwd
  | .close _ cwd => CwdOk cwd
  | .socketpair _ _ _ cwd => CwdOk cwd
  | _ => True

theorem tree_bindH {s : State} (T : Tree s.fs.inodes s.fs.next) {cwd : Str} (hc : CwdOk cwd) (h : Nat) (a : Str) :
    Tree (bindH s h cwd a).1.fs.inodes (bindH s h cwd a).1.fs.next := by
  have tb := tree_bindName T (pathOf_good hc a) a
  unfold bindH
  dsimp only
  split
  · exact T
  · revert tb
    generalize bindName s.fs a (pathOf cwd a) = r
    obtain ⟨fs, r, o⟩ := r
    intro tb
    split <;> (rename_i heq; cases heq; exact tb)

theorem tree_autoBind {s : State} (T : Tree s.fs.inodes s.fs.next) {cwd : Str} (hc : CwdOk cwd) (h : Nat) :
    Tree (autoBind s h cwd).fs.inodes (autoBind s h cwd).fs.next := by
  unfold autoBind
  split
  · exact T
  · exact tree_bindH (s := { s with ud := s.ud + 1 }) T hc h _

theorem tree_bump {fs fs' : Fs} (T : Tree fs.inodes fs.next) {i : Nat} (h : bumpInode fs i = some fs') :
    Tree fs'.inodes fs'.next := by
  unfold bumpInode at h
  split at h
  · cases h
  · rename_i nd hi
    cases h
    split
    · exact T.congr (SameShape.upd hi rfl)
    · exact T

theorem tree_drop {fs fs' : Fs} (T : Tree fs.inodes fs.next) {i : Nat} {la : Option Str} {cwd : Str}
    (h : dropInode fs i la cwd = some fs') : Tree fs'.inodes fs'.next := by
  unfold dropInode at h
  split at h
  · cases h
  · rename_i nd hi
    split at h
    · rename_i hs
      have hk : nd.isDir = false := by
        cases hx : nd.kind <;> simp [Inode.isSock, Inode.isDir, hx] at hs ⊢
      split at h
      · cases h
      · split at h
        · rename_i hl
          split at h
          · cases h
          · cases h
            refine T.remove hi ?_ ?_ ?_
            · rintro rfl
              obtain ⟨rd, r1, r2⟩ := T.root
              rw [hi] at r1; cases r1
              rw [hk] at r2; cases r2
            · rw [← T.flink hi hk]; exact hl.2
            · intro n j hm; rw [T.leaf hi hk] at hm; cases hm
        · cases h
          exact T.congr (SameShape.upd hi rfl)
    · cases h; exact T

theorem bumpEnd_fs (s : State) (e : Pipe.End) (o : Option Nat) : (bumpEnd s e o).fs = s.fs := by cases o <;> rfl
theorem dropEnd_fs (s : State) (e : Pipe.End) (o : Option Nat) : (dropEnd s e o).fs = s.fs := by cases o <;> rfl

/-- C54.  No call on a unix socket breaks the well-formedness of the file system. -/
theorem tree_step {s : State} (T : Tree s.fs.inodes s.fs.next) {op : Op} (hc : CwdsOk op)
    (hf : ∀ fs, op = .fsys fs → Tree fs.inodes fs.next) : Tree (step s op).1.fs.inodes (step s op).1.fs.next := by
  have ws : ∀ d f, (∀ fd, s.fds d = some fd → Tree (f fd (s.handles fd.h)).1.fs.inodes (f fd (s.handles fd.h)).1.fs.next) →
      Tree (withSock s d f).1.fs.inodes (withSock s d f).1.fs.next := fun d f h =>
    withSock_handle (P := fun t => Tree t.fs.inodes t.fs.next) s d f T h
  cases op with
  | socket d nb => simp only [step, socket]; split <;> exact T
  | bind d cwd a => exact ws _ _ fun fd _ => tree_bindH T hc fd.h a
  | getsockname d => exact ws _ _ fun _ _ => T
  | getpeername d => refine ws _ _ fun fd _ => ?_; split <;> exact T
  | listen d => refine ws _ _ fun fd _ => ?_; split <;> exact T
  | connect d cwd a =>
    refine ws _ _ fun fd _ => ?_
    dsimp only
    have ta := tree_autoBind T hc fd.h
    generalize autoBind s fd.h cwd = s1 at ta ⊢
    split
    · exact T
    · split
      · split
        · exact ta
        · exact ta
      · exact ta
  | accept d new cwd =>
    refine ws _ _ fun fd _ => ?_
    cases new with
    | none => exact T
    | some d' =>
      dsimp only
      split
      · exact T
      · split
        · exact T
        · split
          · exact T
          · split
            · exact T
            · split
              · exact T
              · rename_i ino _ _
                cases ino with
                | none => exact T
                | some i =>
                  dsimp only
                  split
                  · exact T
                  · rename_i hb; exact tree_bump T hb
  | send d data => simp only [step, (send_fds s d data).2.2.1]; exact T
  | writev d iovs => simp only [step, (writev_fds s d iovs).2.2.1]; exact T
  | recv d n peek => simp only [step, (recv_fds s d n peek).2.2]; exact T
  | shutdown d how =>
    simp only [step, shutdown]
    split
    · exact T
    · refine ws _ _ fun fd _ => ?_
      split
      · exact T
      · dsimp only; split <;> exact T
  | dup d d' =>
    refine ws _ _ fun fd _ => ?_
    split
    · exact T
    · have : (bumpPipes s (s.handles fd.h)).fs = s.fs := (bumpPipes_fds _ _).2.2.2
      simp only [State.setFd, this]; exact T
  | forkFd d d' =>
    refine ws _ _ fun fd _ => ?_
    split
    · exact T
    · split
      · exact T
      · split
        · exact T
        · rename_i hb; exact tree_bump T hb
  | close d cwd =>
    refine ws _ _ fun fd _ => ?_
    split
    · exact T
    · rename_i i _
      dsimp only
      have : ∀ x, (dropPipes s fd.h x i).fs = s.fs := fun x => by
        simp only [dropPipes, State.setH, dropEnd_fs]
      split
      · rw [this]; exact T
      · rename_i hb; exact tree_drop T hb
  | socketpair d d' nb cwd =>
    simp only [step, socketpair]
    split
    · exact T
    · have t1 := tree_autoBind (s := { s with
        handles := upd (upd s.handles s.nh {}) (s.nh + 1) {}, nh := s.nh + 2
        fds := upd (upd s.fds d (some { h := s.nh, nb := nb })) d' (some { h := s.nh + 1, nb := nb }) }) T hc s.nh
      have t2 := tree_autoBind t1 hc (s.nh + 1)
      revert t2
      generalize autoBind _ (s.nh + 1) cwd = s2
      intro t2
      split
      · split
        · exact t2
        · rename_i hb
          split
          · exact t2
          · rename_i hb'
            exact tree_bump (tree_bump t2 hb) hb'
      · exact t2
  | setNb d nb => exact ws _ _ fun _ _ => T
  | fsys fs => exact hf fs rfl

/-! ## C54 -/

theorem bind_eq {s : State} {d : Nat} {fd : Fd} (hfd : s.fds d = some fd) (hw : (s.handles fd.h).waiting = false) (cwd a : Str) :
    step s (.bind d cwd a) = ((bindH s fd.h cwd a).1, .r (bindH s fd.h cwd a).2) := by
  simp only [step, bind, withSock, hfd, hw, Bool.false_eq_true, if_false]

theorem sock_fun {s : State} {d : Nat} {la la' : Option Str} (h : HasAddr s d la) (h' : HasAddr s d la') : la = la' := by
  obtain ⟨fd, a1, -, a3⟩ := h
  obtain ⟨fd', b1, -, b3⟩ := h'
  rw [a1] at b1; cases b1
  rw [← a3, ← b3]

/-- C54.  bind succeeds if and only if the socket is open and has no address, the address is not empty and leads to nothing, and the
directory it is to be in exists. -/
theorem bind_succeeds_iff {s : State} (T : Tree s.fs.inodes s.fs.next) {cwd : Str} (hc : CwdOk cwd) (d : Nat) (a : Str) :
    (step s (.bind d cwd a)).2.ret = .ok 0 ↔
      HasAddr s d none ∧ a ≠ [] ∧ (∀ i, ¬ Leads s cwd a i) ∧ ∃ par n, Place s cwd a par n := by
  cases hfd : s.fds d with
  | none =>
    have e : step s (.bind d cwd a) = (s, .r (.err .EBADF)) := by simp only [step, bind, withSock, hfd]
    rw [e]
    constructor
    · intro h; cases h
    · rintro ⟨⟨fd, h, -⟩, -⟩; rw [hfd] at h; cases h
  | some fd =>
    by_cases hw : (s.handles fd.h).waiting = true
    · have e : step s (.bind d cwd a) = (s, .r .blocked) := by simp only [step, bind, withSock, hfd, hw, if_true]
      rw [e]
      constructor
      · intro h; cases h
      · rintro ⟨⟨fd', h, h', -⟩, -⟩; rw [hfd] at h; cases h; rw [hw] at h'; cases h'
    · have hw : (s.handles fd.h).waiting = false := by simpa using hw
      rw [bind_eq hfd hw]
      cases hla : (s.handles fd.h).laddr with
      | some la =>
        have e : bindH s fd.h cwd a = (s, .err .EINVAL) := by simp only [bindH, hla]
        rw [e]
        constructor
        · intro h; cases h
        · rintro ⟨⟨fd', h, -, h'⟩, -⟩; rw [hfd] at h; cases h; rw [hla] at h'; cases h'
      | none =>
        have hu : HasAddr s d none := ⟨fd, hfd, hw, hla⟩
        have hgood := pathOf_good hc a
        rcases bindName_cases T hgood a with ⟨h1, e⟩ | ⟨h1, h2, e⟩ | ⟨h1, h2, ps, n, par, pd, g0, gw, g1, g2, g3, g4, g5, e⟩ | ⟨h1, h2, h3, e⟩
        · have : (bindH s fd.h cwd a).2 = .err .ENOENT := by simp only [bindH, hla, e]
          rw [this]
          exact ⟨fun h => by (cases h), fun h => absurd h1 h.2.1⟩
        · have : (bindH s fd.h cwd a).2 = .err .EADDRINUSE := by simp only [bindH, hla, e]
          rw [this]
          exact ⟨fun h => by (cases h), fun h => by obtain ⟨i, hi⟩ := h2; exact absurd hi (h.2.2.1 i)⟩
        · have : (bindH s fd.h cwd a).2 = .ok 0 := by simp only [bindH, hla, e]
          rw [this]
          exact ⟨fun _ => ⟨hu, h1, h2, par, n, ps, pd, g0, gw, g1, g2⟩, fun _ => rfl⟩
        · have : (bindH s fd.h cwd a).2 = .err .ENOENT := by simp only [bindH, hla, e]
          rw [this]
          refine ⟨fun h => by (cases h), ?_⟩
          rintro ⟨-, -, -, par, n, ps, pd, k1, k2, k3, k4⟩
          have := h3 ps n par pd k1 k2 k3
          rw [k4] at this; cases this

/-- C54.  A successful bind creates exactly one name, the given address, for a new socket: its number was unused, it has one link, and
every directory has the names it had and nothing else; all other objects are untouched, and the socket has the address. -/
theorem bind_effect {s : State} (T : Tree s.fs.inodes s.fs.next) {cwd : Str} (hc : CwdOk cwd) {d : Nat} {a : Str}
    (hok : (step s (.bind d cwd a)).2.ret = .ok 0) {par : Nat} {n : Name} (hpl : Place s cwd a par n) :
    ∃ i nd, s.fs.inodes i = none ∧ (step s (.bind d cwd a)).1.fs.inodes i = some nd ∧ nd.kind = .sock ∧ nd.link = 1 ∧
      Leads (step s (.bind d cwd a)).1 cwd a i ∧
      (∀ e m j, Named (step s (.bind d cwd a)).1 e m j ↔ Named s e m j ∨ (e = par ∧ m = n ∧ j = i)) ∧
      (∀ j, j ≠ i → j ≠ par → (step s (.bind d cwd a)).1.fs.inodes j = s.fs.inodes j) ∧
      (∀ q j, Leads s cwd q j → Leads (step s (.bind d cwd a)).1 cwd q j) ∧
      HasAddr (step s (.bind d cwd a)).1 d (some a) := by
  have hR := (bind_succeeds_iff T hc d a).1 hok
  obtain ⟨⟨fd, hfd, hw, hla⟩, ha, hno, -⟩ := hR
  rw [bind_eq hfd hw]
  have hgood := pathOf_good hc a
  rcases bindName_cases T hgood a with ⟨h1, e⟩ | ⟨h1, ⟨i, h2⟩, e⟩ | ⟨h1, h2, ps, n', par', pd, g0, gw, g1, g2, g3, g4, g5, e⟩ | ⟨h1, h2, h3, e⟩
  · exact absurd h1 ha
  · exact absurd h2 (hno i)
  · obtain ⟨ps', pd', k1, k2, k3, k4⟩ := hpl
    have hl := List.append_inj' (k1.symm.trans g0) rfl
    simp only [List.cons.injEq, and_true] at hl
    obtain ⟨rfl, rfl⟩ := hl
    have := walk_fun T k2 gw; subst this
    rw [k3] at g1; cases g1
    have hb : (bindH s fd.h cwd a).1 = { s with fs := grown s.fs (pathOf cwd a) par pd n }.setH fd.h
        { s.handles fd.h with laddr := some a, info := some { inode := s.fs.next, send := none, recv := none } } := by
      simp only [bindH, hla, e]
    rw [hb]
    have hfree := next_free T
    have hne : par ≠ s.fs.next := by rintro rfl; rw [hfree] at k3; cases k3
    refine ⟨s.fs.next, _, hfree, upd_same .., rfl, rfl, ?_, ?_, ?_, ?_, ?_⟩
    · unfold Leads
      rw [k1]
      exact Verif.Kernel.walk_grow_new k3 hfree (pd' := { pd with ents := entPut pd.ents n s.fs.next, link := pd.link + 1 }) g2 rfl g4 k2
    · intro e m j
      show (∃ nd, upd (upd s.fs.inodes par _) s.fs.next _ e = some nd ∧ _) ↔ _
      by_cases h1 : e = s.fs.next
      · subst h1
        rw [upd_same]
        constructor
        · rintro ⟨nd, h1, h2⟩; cases h1; cases h2
        · rintro (⟨nd, h1, -⟩ | ⟨h1, -⟩)
          · rw [hfree] at h1; cases h1
          · exact absurd h1.symm hne
      · rw [upd_ne _ _ h1]
        by_cases h2 : e = par
        · subst h2
          rw [upd_same]
          constructor
          · rintro ⟨nd, h1, h2⟩
            cases h1
            rcases mem_entPut.1 h2 with ⟨rfl, rfl⟩ | ⟨h3, -⟩
            · exact .inr ⟨rfl, rfl, rfl⟩
            · exact .inl ⟨pd, k3, h3⟩
          · rintro (⟨nd, h1, h2⟩ | ⟨-, rfl, rfl⟩)
            · rw [k3] at h1; cases h1
              exact ⟨_, rfl, mem_entPut.2 (.inr ⟨h2, by rintro rfl; exact absurd h2 (entGet_none.1 g4 j)⟩)⟩
            · exact ⟨_, rfl, mem_entPut.2 (.inl ⟨rfl, rfl⟩)⟩
        · rw [upd_ne _ _ h2]
          exact ⟨.inl, fun h => h.resolve_right fun h => h2 h.1⟩
    · intro j h1 h2
      show upd (upd s.fs.inodes par _) s.fs.next _ j = _
      rw [upd_ne _ _ h1, upd_ne _ _ h2]
    · intro q j hq
      exact Verif.Kernel.walk_grow k3 hfree (pd' := { pd with ents := entPut pd.ents n s.fs.next, link := pd.link + 1 }) g2 rfl g4 hq
    · refine ⟨fd, hfd, ?_, ?_⟩
      · simp only [State.setH, upd_same]; exact hw
      · simp only [State.setH, upd_same]
  · obtain ⟨ps, pd, k1, k2, k3, k4⟩ := hpl
    have := h3 ps n par pd k1 k2 k3
    rw [k4] at this; cases this

/-- C54 (partial: the name; that the socket stays unbound is false, see `failed_bind_violated`).  A bind to an address that exists fails
with EADDRINUSE and changes no file. -/
theorem bind_existing_partial {s : State} (T : Tree s.fs.inodes s.fs.next) {cwd : Str} (hc : CwdOk cwd) {d : Nat} {a : Str} {i : Nat}
    (hd : HasAddr s d none) (ha : a ≠ []) (hi : Leads s cwd a i) :
    (step s (.bind d cwd a)).2.ret = .err .EADDRINUSE ∧ (step s (.bind d cwd a)).1.fs = s.fs := by
  obtain ⟨fd, hfd, hw, hla⟩ := hd
  rw [bind_eq hfd hw]
  rcases bindName_cases T (pathOf_good hc a) a with ⟨h1, e⟩ | ⟨h1, -, e⟩ | ⟨h1, h2, -⟩ | ⟨h1, h2, -⟩
  · exact absurd h1 ha
  · simp only [bindH, hla, e, Out.r, State.setH, and_self]
  · exact absurd hi (h2 i)
  · exact absurd hi (h2 i)

/-- C54.  A bind that fails changes no file, whatever the reason. -/
theorem bind_failed_fs {s : State} (T : Tree s.fs.inodes s.fs.next) {cwd : Str} (hc : CwdOk cwd) {d : Nat} {a : Str}
    (hno : (step s (.bind d cwd a)).2.ret ≠ .ok 0) : (step s (.bind d cwd a)).1.fs = s.fs := by
  revert hno
  simp only [step, bind]
  unfold withSock
  split
  · intro _; rfl
  · split
    · intro _; rfl
    · rename_i fd hfd hw
      dsimp only [Out.r]
      cases hla : (s.handles fd.h).laddr with
      | some la => simp only [bindH, hla]; intro _; trivial
      | none =>
        rcases bindName_cases T (pathOf_good hc a) a with ⟨-, e⟩ | ⟨-, -, e⟩ | ⟨-, -, ps, n, par, pd, -, -, -, -, -, -, -, e⟩ | ⟨-, -, -, e⟩
        · simp only [bindH, hla, e]; intro _; rfl
        · simp only [bindH, hla, e]; intro _; rfl
        · simp only [bindH, hla, e]; intro h; exact absurd rfl h
        · simp only [bindH, hla, e]; intro _; rfl

/-- C54.  A socket that has an address cannot be bound: EINVAL, and nothing changes. -/
theorem bind_twice {s : State} {d : Nat} {la : Str} (hd : HasAddr s d (some la)) (cwd a : Str) :
    step s (.bind d cwd a) = (s, { ret := .err .EINVAL }) := by
  obtain ⟨fd, hfd, hw, hla⟩ := hd
  rw [bind_eq hfd hw]
  simp only [bindH, hla, Out.r]

theorem laddr_run {s : State} {h : Nat} {a : Str} (hlt : h < s.nh) (hla : (s.handles h).laddr = some a) (ops : List Op) :
    ((run s ops).1.handles h).laddr = some a := by
  induction ops generalizing s with
  | nil => exact hla
  | cons op ops ih =>
    refine ih (Nat.lt_of_lt_of_le hlt (keeps_step s op).nh) ?_
    rcases (handle_step s op h hlt).1 with e | e
    · rw [e]; exact hla
    · rw [hla] at e; cases e

/-- C54.  After a successful bind, through any later calls, every descriptor of the socket that is open and not waiting in a connect
reports the bound address, and binding it again fails with EINVAL and changes nothing. -/
theorem bound_once_for_all {S : Sys} (hR : Reach S) {d h : Nat} {cwd a : Str} (hs : sockOf S.s d = some h)
    (hok : (step S.s (.bind d cwd a)).2.ret = .ok 0) (ops : List Op) {e : Nat} {st : ConnState}
    (he : sockOf (run (step S.s (.bind d cwd a)).1 ops).1 e = some h) (hr : Ready (run (step S.s (.bind d cwd a)).1 ops).1 e st) :
    (step (run (step S.s (.bind d cwd a)).1 ops).1 (.getsockname e)).2 = { ret := .ok 0, addr := some a } ∧
    ∀ cwd' a', step (run (step S.s (.bind d cwd a)).1 ops).1 (.bind e cwd' a') =
      ((run (step S.s (.bind d cwd a)).1 ops).1, { ret := .err .EINVAL }) := by
  cases hfd : S.s.fds d with
  | none => simp [sockOf, hfd] at hs
  | some fd =>
    have hh : fd.h = h := by simpa [sockOf, hfd] using hs
    have hlt := hR.fdLt d fd hfd
    subst hh
    have hw : (S.s.handles fd.h).waiting = false := by
      cases hw : (S.s.handles fd.h).waiting with
      | false => rfl
      | true =>
        have : step S.s (.bind d cwd a) = (S.s, .r .blocked) := by simp only [step, bind, withSock, hfd, hw, if_true]
        rw [this] at hok; cases hok
    have hla : ((step S.s (.bind d cwd a)).1.handles fd.h).laddr = some a := by
      rw [bind_eq hfd hw] at hok ⊢
      revert hok
      cases hla : (S.s.handles fd.h).laddr with
      | some la => simp only [bindH, hla]; intro h; cases h
      | none =>
        simp only [bindH, hla]
        split
        · intro _; simp only [State.setH, upd_same]
        · intro _; simp only [State.setH, upd_same]
    have key := laddr_run (Nat.lt_of_lt_of_le hlt (keeps_step S.s (.bind d cwd a)).nh) hla ops
    obtain ⟨f, f1, f2, -⟩ := hr
    have : f.h = fd.h := by simpa [sockOf, f1] using he
    have hkey : ((run (step S.s (.bind d cwd a)).1 ops).1.handles f.h).laddr = some a := by rw [this]; exact key
    refine ⟨?_, fun cwd' a' => bind_twice ⟨f, f1, f2, hkey⟩ cwd' a'⟩
    generalize (run (step S.s (.bind d cwd a)).1 ops).1 = t at f1 f2 hkey
    simp only [step, getsockname, withSock, f1, f2, Bool.false_eq_true, if_false, hkey, Option.getD_some]

end Verif.UnixSock
