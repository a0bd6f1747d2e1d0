import Verif.Scratch
import Verif.NamesKeptProps
import Verif.MailboxProps
import Verif.FsToolsProps
import Verif.FollowProps
import Verif.StatBufProps
import Verif.RedirectPipe

/-! # A file whose last name was removed is private to those who hold it (property C116) -/

namespace Verif.Scratch
open Verif.Fs Verif.Kernel Verif.Path Verif.Confine Verif.FsTools

/-! ## Lemmas -/

/-- What is new has no entries but `.` and `..`. -/
def Barren (s s' : State) (y : Nat) : Prop := s.fs.inodes y = none ∧ ∀ nd, s'.fs.inodes y = some nd → ∀ m k, (m, k) ∈ nd.ents → isDots m = true

/-- A call that makes a name does not wait. -/
theorem not_blocked {s : State} (hR : Reach s) (c : Nat) {op : Op} (h : makes s c op ≠ []) : (step s c op).2.ret ≠ .blocked := by
  cases hc : s.cages c with
  | none => simp [step, hc, Out.r]
  | some cg =>
    cases op with
    | openP p fl m =>
      by_cases hp : p = []
      · simp [step, hc, openSys, hp, Out.r]
      cases hfd : nextFd cg.fds 0 with
      | none => simp [step, hc, openSys, hp, hfd, Out.r]
      | some fd =>
        obtain ⟨pl, ha, -⟩ := place_exists_unique hR hc p
        rw [open_answer hR hc hp ha fl m hfd]
        dsimp only
        split <;> simp
    | mkdir | mknod | link | rename =>
      simp only [step, hc, nonEmpty, State.onFs, Out.r, Fs.mkdir, Fs.mknod, Fs.link, Fs.rename]
      intro e
      repeat' split at e
      all_goals first | (cases e; done) | (simp_all; done)
    | _ => simp only [makes, hc, ne_eq, not_true_eq_false] at h

/-- What a path leads to after a call, a path led to before, or it is new and empty. -/
theorem origin {s : State} (hR : Reach s) {c : Nat} {op : Op} (ht : Tame s c op) (hp : (step s c op).2.ret ≠ .panic) {q : List Name}
    (hq : ∀ n ∈ q, isDots n = false) {y : Nat} (w : Walk (step s c op).1.fs.inodes rootIno q y) :
    (∃ q0, (∀ n ∈ q0, isDots n = false) ∧ Walk s.fs.inodes rootIno q0 y) ∨ Barren s (step s c op).1 y := by
  have T := hR.inv.fs.tree
  have hR' := Reach.step c op hR ht hp
  have T' := hR'.inv.fs.tree
  -- a failed call
  by_cases herr : isNamespaceCall op = true ∧ ∃ e, (step s c op).2.ret = .err e
  · obtain ⟨h1, e, h2⟩ := herr
    exact .inl ⟨q, hq, (failed_call_keeps_paths hR h1 h2 _ _ _).1 w⟩
  have hok : isNamespaceCall op = true → makes s c op ≠ [] → ∃ v, (step s c op).2.ret = .ok v := by
    intro h hm
    cases hr : (step s c op).2.ret with
    | ok v => exact ⟨v, rfl⟩
    | err e => exact absurd ⟨h, e, hr⟩ herr
    | panic => exact absurd hr hp
    | blocked => exact absurd hr (not_blocked hR c hm)
  suffices H : ∀ n (q : List Name), q.length = n → (∀ n ∈ q, isDots n = false) → ∀ y, Walk (step s c op).1.fs.inodes rootIno q y →
      (∃ q0, (∀ n ∈ q0, isDots n = false) ∧ Walk s.fs.inodes rootIno q0 y) ∨ Barren s (step s c op).1 y from H _ q rfl hq y w
  clear w hq q y
  intro n
  induction n with
  | zero =>
    intro q hl hq y w
    rw [List.length_eq_zero_iff.1 hl] at w
    cases w; exact .inl ⟨[], nofun, .here _⟩
  | succ n ih =>
    intro q hl hq y w
    rcases snoc_cases q with rfl | ⟨q, m, rfl⟩
    · cases hl
    obtain ⟨x, xd', w1, hx', hxd', hm⟩ := w.split
    have hmd : isDots m = false := hq m (by simp)
    rcases ih q (by simpa using hl) (fun n hn => hq n (by simp [hn])) x w1 with ⟨q0, g0, w0⟩ | ⟨-, hb⟩
    · obtain ⟨xd, hx⟩ := Walk.exists T w0 ((plainly_iff q0).1 g0) (root_exists hR)
      have hk := ((lost_step hR ht).2.get x xd' xd hx' hx).1
      have hxd : xd.isDir := isDir_iff.2 (hk.trans (isDir_iff.1 hxd'))
      have found : (m, y) ∈ xd.ents → ∃ q1, (∀ n ∈ q1, isDots n = false) ∧ Walk s.fs.inodes rootIno q1 y := fun h =>
        ⟨q0 ++ [m], fun n hn => (List.mem_append.1 hn).elim (g0 n) (fun e => by rw [List.mem_singleton.1 e]; exact hmd), w0.snoc hx hxd h⟩
      by_cases hin : (m, y) ∈ xd.ents
      · exact .inl (found hin)
      have hlast : Last s.fs.inodes (makes s c op) x m := by
        by_cases h : Last s.fs.inodes (makes s c op) x m
        · exact h
        · exact absurd (((lost_step hR ht).2.get x xd' xd hx' hx).2 m y hm h) hin
      obtain ⟨ps, hps, wps⟩ := hlast
      cases hc : s.cages c with
      | none => simp only [makes, hc] at hps; cases hps
      | some cg =>
        have gp := fun p => hR.inv.gp hc p
        -- the path made leads to `y`, unless the call takes a path
        have leads : (∀ p ∈ takes s c op, ¬ p <+: ps) → ∀ p, ps ++ [m] = cg.path p → Leads (step s c op).1 cg p y := by
          intro hno p e
          unfold Leads
          rw [← e]
          exact (names_kept_partial hR ht (fun n hn => gp p n (by rw [← e]; simp [hn])) hno wps).snoc hx' hxd' hm
        have plain : ∀ p i, Leads s cg p i → ∃ q1, (∀ n ∈ q1, isDots n = false) ∧ Walk s.fs.inodes rootIno q1 i := fun p i hl =>
          ⟨cg.path p, (plainly_iff _).2 fun n hn => Good.proper (gp p n hn), hl⟩
        cases op with
        | openP p fl md =>
          obtain ⟨v, hv⟩ := hok rfl (fun e => by rw [e] at hps; cases hps)
          simp only [makes, hc] at hps
          split at hps
          · cases hps
          · have hl := leads (by simp [takes, hc]) p (List.mem_singleton.1 hps)
            by_cases hno : ∃ i, Leads s cg p i
            · obtain ⟨i, hi⟩ := hno
              have := names_kept_partial hR ht (gp p) (by simp [takes, hc]) hi
              have := walk_fun T' this hl; subst this
              exact .inl (plain p _ hi)
            · obtain ⟨-, i, fd, h1, -, h2, -, h3, -⟩ := open_creates hR hc (fun i hi => hno ⟨i, hi⟩) hv
              have := walk_fun T' h2 hl; subst this
              refine .inr ⟨h1, fun nd hnd => ?_⟩
              rw [h3] at hnd; cases hnd
              intro m k h; cases h
        | mkdir p md =>
          obtain ⟨v, hv⟩ := hok rfl (fun e => by rw [e] at hps; cases hps)
          simp only [makes, hc] at hps
          have hl := leads (by simp [takes, hc]) p (List.mem_singleton.1 hps)
          obtain ⟨d, n, i, -, h2, h1, h3, -⟩ := mkdir_effect hR hc hv
          have := walk_fun T' h2 hl; subst this
          refine .inr ⟨h1, fun nd hnd => ?_⟩
          rw [h3] at hnd; cases hnd
          intro m k h
          simp only [List.mem_cons, List.not_mem_nil, or_false, Prod.mk.injEq] at h
          rcases h with ⟨rfl, -⟩ | ⟨rfl, -⟩ <;> decide
        | mknod p md dv =>
          obtain ⟨v, hv⟩ := hok rfl (fun e => by rw [e] at hps; cases hps)
          simp only [makes, hc] at hps
          have hl := leads (by simp [takes, hc]) p (List.mem_singleton.1 hps)
          obtain ⟨-, d, n, i, -, h2, h1, h3, -⟩ := mknod_effect hR hc hv
          have := walk_fun T' h2 hl; subst this
          refine .inr ⟨h1, fun nd hnd => ?_⟩
          rw [h3] at hnd; cases hnd
          intro m k h; cases h
        | link o p =>
          obtain ⟨v, hv⟩ := hok rfl (fun e => by rw [e] at hps; cases hps)
          simp only [makes, hc] at hps
          have hl := leads (by simp [takes, hc]) p (List.mem_singleton.1 hps)
          obtain ⟨d, k, d', k', i, nd, pd', h1, -, h2, -⟩ := link_effect hR hc hv
          have := walk_fun T' (Mailbox.object_leads h2) hl; subst this
          exact .inl (plain o _ (Mailbox.object_leads h1))
        | rename o p =>
          have hfree : ∀ j, ¬ Leads s cg p j := by
            intro j hj
            obtain ⟨par, hw, -⟩ := hR.inv.walk_found hc hj
            simp only [Tame, hc] at ht
            exact ht _ _ hw
          have hv : (step s c (.rename o p)).2.ret = .ok 0 := by
            rcases Mailbox.rename_returns hR hc o p with ⟨e, he⟩ | h
            · exact absurd ⟨rfl, e, he⟩ herr
            · exact h
          obtain ⟨-, -, -, -, -, -, -, i, -, -, -, -, hi⟩ := (rename_succeeds_partial hR hc hfree).1 hv
          obtain ⟨-, -, ⟨-, -, o1, n1, d, -, -, -, he, hother⟩, -⟩ := rename_effect_partial hR hc hfree hi hv
          have hE : Entry (step s c (.rename o p)).1 x m y := (entry_iff hx').2 hm
          by_cases hd : x = d
          · subst hd
            rcases (he m y).1 hE with ⟨-, rfl⟩ | ⟨-, -, h⟩
            · exact .inl (plain o _ hi)
            · exact absurd ((entry_iff hx).1 h) hin
          · exact absurd ((entry_iff hx).1 ((hother x m y hd).1 hE)) hin
        | _ => simp only [makes, hc] at hps; cases hps
    · have := hb xd' hx' m y hm
      rw [hmd] at this; cases this

theorem noPath_step {s : State} (hR : Reach s) {c : Nat} {op : Op} (ht : Tame s c op) (hp : (step s c op).2.ret ≠ .panic) {i : Nat}
    (hi : i < s.fs.next) (h : NoPath s i) : NoPath (step s c op).1 i := by
  intro q hq w
  have hR' := Reach.step c op hR ht hp
  rcases origin hR ht hp hq w with ⟨q0, g0, w0⟩ | ⟨hn, -⟩
  · exact h q0 g0 w0
  · obtain ⟨nd', hnd'⟩ := Walk.exists hR'.inv.fs.tree w ((plainly_iff q).1 hq) (root_exists hR')
    rcases (step_evo s c op).old i nd' hnd' with ⟨nd, hnd, -⟩ | ⟨h1, -⟩
    · rw [hn] at hnd; cases hnd
    · omega

/-- What `open` opens is what the path leads to, or new. -/
theorem opened_leads {s : State} (hR : Reach s) {c : Nat} {cg : Cage} (hc : s.cages c = some cg) {p : Str} {fl m : BitVec 32} {v i pos : Nat} {f : BitVec 32}
    (hv : (step s c (.openP p fl m)).2.ret = .ok v) (hs : slot (step s c (.openP p fl m)).1 c v = some (.file i pos f)) :
    Leads s cg p i ∨ s.fs.inodes i = none := by
  by_cases hno : ∃ j, Leads s cg p j
  · obtain ⟨j, hj⟩ := hno
    obtain ⟨par, hw, -⟩ := hR.inv.walk_found hc hj
    left
    have hop : ∀ fs' k sz, s.fs.openExisting j fl = (fs', .opened k sz) → k = j := by
      intro fs' k sz e
      simp only [Fs.openExisting] at e
      repeat' split at e
      all_goals first | (cases e; done) | (cases e; rfl)
    simp only [step, hc, openSys, Fs.openP, hw] at hv hs
    by_cases hpe : p = []
    · rw [if_pos hpe] at hv; cases hv
    rw [if_neg hpe] at hv hs
    cases hfd : nextFd cg.fds 0 with
    | none => simp only [hfd] at hv; cases hv
    | some fd =>
      simp only [hfd] at hv hs
      rcases he : s.fs.openExisting j fl with ⟨fs', ⟨r, sz⟩ | r⟩
      · rw [he] at hv hs
        dsimp only [Out.r] at hs hv
        have := hop _ _ _ he; subst this
        have hvf : v = fd := by injection hv with hv; omega
        subst hvf
        rw [Pipeline.slot_set (s := { s with fs := fs' }) hc, if_pos ⟨rfl, rfl⟩] at hs
        simp only [newDesc, Option.some.injEq, Desc.file.injEq] at hs
        rw [← hs.1]; exact hj
      · rw [he] at hv
        dsimp only [Out.r] at hv
        subst hv
        simp only [Fs.openExisting] at he
        repeat' split at he
        all_goals (cases he; done)
  · obtain ⟨-, j, fd, h1, h2, -, h3, -⟩ := open_creates hR hc (fun j hj => hno ⟨j, hj⟩) hv
    have : fd = v := by omega
    subst this
    obtain ⟨-, cg', hc', hd⟩ := h3
    rw [slot_eq hc', hd] at hs
    cases hs
    exact .inr h1

/-- Nobody comes to have a descriptor but by inheritance. -/
theorem kin_step {s : State} (hR : Reach s) {c : Nat} {op : Op} (hp : (step s c op).2.ret ≠ .panic) {i : Nat} {nd : Inode} (hi : s.fs.inodes i = some nd)
    (h : NoPath s i) {E : Nat → Prop} (hE : ∀ k, Has s k (.file i) → E k) (k : Nat) (hk : Has (step s c op).1 k (.file i)) : kin c op E k := by
  have := heirs_has hE c op k hk
  unfold heirs at this
  rw [if_neg hp] at this
  unfold kin
  split at this
  · exact this
  · exact this
  · exact this
  · rename_i h1 h2 h3
    have hh : E k := by
      rcases this with g | ⟨-, ⟨p, fl, m, rfl⟩, v, hv, pos, f, hs⟩
      · exact g
      · exfalso
        cases hc : s.cages c with
        | none => simp only [step, hc, Out.r] at hv; cases hv
        | some cg =>
          rcases opened_leads hR hc hv hs with g | g
          · exact h (cg.path p) ((plainly_iff _).2 fun n hn => Good.proper (hR.inv.gp hc p n hn)) g
          · rw [hi] at g; cases g
    split
    · exact absurd rfl (h1 _)
    · exact absurd rfl (h2 _)
    · exact absurd rfl (h3 _)
    · exact hh

theorem step_next (s : State) (c : Nat) (op : Op) : s.fs.next ≤ (step s c op).1.fs.next := (step_evo s c op).next

/-- Who has a descriptor for something that is not there? -/
theorem has_exists {s : State} (hR : Reach s) {k i : Nat} (h : Has s k (.file i)) : ∃ nd, s.fs.inodes i = some nd := by
  obtain ⟨fd, pos, f, hs⟩ := h
  cases hc : s.cages k with
  | none => simp [slot, hc] at hs
  | some cg =>
    rw [slot_eq hc] at hs
    exact open_alive hR hc hs

/-- Where the history leads. -/
theorem walk_on {h : List (Nat × Op)} : ∀ {s : State} {E : Nat → Prop} {i : Nat}, Reach s → i < s.fs.next → NoPath s i →
    (∀ k, Has s k (.file i) → E k) → Calm s h →
    Reach (run s h) ∧ NoPath (run s h) i ∧ (∀ k, Has (run s h) k (.file i) → family h E k) ∧ i < (run s h).fs.next := by
  induction h with
  | nil => intro s E i hR hi hn hE _; exact ⟨hR, hn, hE, hi⟩
  | cons x h ih =>
    obtain ⟨c, op⟩ := x
    intro s E i hR hi hn hE hcalm
    cases hcalm with
    | cons t p rest =>
      have hR' := Reach.step c op hR t p
      refine ih (E := kin c op E) hR' (Nat.lt_of_lt_of_le hi (step_next s c op)) (noPath_step hR t p hi hn) ?_ rest
      intro k hk
      obtain ⟨nd', hnd'⟩ := has_exists hR' hk
      rcases (step_evo s c op).old i nd' hnd' with ⟨nd, hnd, -⟩ | ⟨h1, -⟩
      · exact kin_step hR p hnd hn hE k hk
      · omega

theorem Start.bound {E : Nat → Prop} {i : Nat} {s : State} (h : Start E i s) : i < s.fs.next := by
  obtain ⟨n, nd, hnd, -⟩ := h.file
  exact h.reach.inv.fs.tree.bound hnd

theorem has_open {s : State} {k i fd pos : Nat} {f : BitVec 32} (h : OpenOn s k fd i pos f) : Has s k (.file i) := by
  obtain ⟨-, cg, hc, hd⟩ := h
  exact ⟨fd, pos, f, by rw [slot_eq hc]; exact hd⟩

/-- A directory with something in it has a path. -/
theorem reached {s : State} (hR : Reach s) : ∀ (d : Nat) {nd : Inode} {m : Name} {j : Nat}, s.fs.inodes d = some nd → (m, j) ∈ nd.ents → Proper m →
    nd.isDir ∧ ∃ q, (∀ n ∈ q, isDots n = false) ∧ Walk s.fs.inodes rootIno q d := by
  have T := hR.inv.fs.tree
  intro d
  induction d using Nat.strongRecOn with
  | ind d ih =>
    intro nd m j hd hm hp
    have hdir : nd.isDir := by
      cases hb : nd.isDir with
      | true => rfl
      | false => rw [T.leaf hd hb] at hm; cases hm
    refine ⟨hdir, ?_⟩
    by_cases hr : d = rootIno
    · subst hr; exact ⟨[], nofun, .here _⟩
    · obtain ⟨p, pd, n, h1, h2, h3⟩ := T.live hd hm hp hr
      obtain ⟨-, -, -, jd, h4, h5⟩ := T.ent h1 h2 h3
      rw [hd] at h4; cases h4
      obtain ⟨a, q, hq, w⟩ := ih p (h5 hdir).2 h1 h2 h3
      exact ⟨q ++ [n], fun x hx => (List.mem_append.1 hx).elim (hq x) (fun e => by rw [List.mem_singleton.1 e]; exact (isDots_iff n).2 h3), w.snoc h1 a h2⟩

theorem noNames {s : State} (hR : Reach s) {i : Nat} (h : NoPath s i) : numNames s i = 0 := by
  unfold numNames
  rw [List.sum_eq_zero_iff_forall_eq_nat]
  intro x hx
  obtain ⟨d, -, rfl⟩ := List.mem_map.1 hx
  rw [List.countP_eq_zero]
  rintro ⟨m, j⟩ hm hc
  simp only [Bool.and_eq_true, beq_iff_eq, Bool.not_eq_true'] at hc
  obtain ⟨rfl, hmd⟩ := hc
  cases hd : s.fs.inodes d with
  | none => simp [entries, hd] at hm
  | some nd =>
    have hm' : (m, j) ∈ nd.ents := (entry_iff hd).1 hm
    obtain ⟨a, q, hq, w⟩ := reached hR d hd hm' ((isDots_iff m).1 hmd)
    exact h (q ++ [m]) (fun x hx => (List.mem_append.1 hx).elim (hq x) (fun e => by rw [List.mem_singleton.1 e]; exact hmd)) (w.snoc hd a hm')

/-! ## Theorems -/

/-- C116.  Whatever calls anybody makes, members of the family included: no path ever leads to the file again.  Partial: for calls that do not abort, and not
for `rename` to a name in use and `unlink` from a directory that may not be changed (C13, C24). -/
theorem scratch_hidden_partial {E : Nat → Prop} {i : Nat} {s : State} (h : Start E i s) {hist : List (Nat × Op)} (hc : Calm s hist) :
    NoPath (run s hist) i :=
  (walk_on h.reach h.bound h.nameless h.only hc).2.1

/-- C116.  Nobody ever comes to have a descriptor for it but members of the family: those who had one, their children and what they execute. -/
theorem scratch_family_partial {E : Nat → Prop} {i : Nat} {s : State} (h : Start E i s) {hist : List (Nat × Op)} (hc : Calm s hist) {k fd pos : Nat}
    {f : BitVec 32} (ho : OpenOn (run s hist) k fd i pos f) : family hist E k :=
  (walk_on h.reach h.bound h.nameless h.only hc).2.2.1 k (has_open ho)

/-- C116.  A call of anybody else, after any history, leaves its bytes, its size and the descriptors for it as they are. -/
theorem scratch_private_partial {E : Nat → Prop} {i : Nat} {s : State} (h : Start E i s) {hist : List (Nat × Op)} (hc : Calm s hist) {c : Nat} {op : Op}
    (ht : Tame (run s hist) c op) (hp : (step (run s hist) c op).2.ret ≠ .panic) (hno : ¬ family hist E c) {k fd pos : Nat} {f : BitVec 32}
    (ho : OpenOn (run s hist) k fd i pos f) :
    bytes (step (run s hist) c op).1 i = bytes (run s hist) i ∧ OpenOn (step (run s hist) c op).1 k fd i pos f := by
  obtain ⟨hR, hn, hfam, -⟩ := walk_on h.reach h.bound h.nameless h.only hc
  have hkc : k ≠ c := by rintro rfl; exact hno (hfam k (has_open ho))
  have hslot : slot (step (run s hist) c op).1 k fd = some (.file i pos f) := Follow.slot_kept ho.slot hkc ht
  have ho' : OpenOn (step (run s hist) c op).1 k fd i pos f := Pipeline.openOn_of_slot ho.1 hslot
  refine ⟨?_, ho'⟩
  have hR' := Reach.step c op hR ht hp
  obtain ⟨nd', hnd'⟩ := StatBuf.open_exists hR' ho'
  obtain ⟨nd, hnd⟩ := StatBuf.open_exists hR ho
  obtain ⟨m, hf⟩ : ∃ m, IsFile (run s hist) i m := by
    obtain ⟨n, nd0, hnd0, hk0, -⟩ := h.file
    obtain ⟨nd1, e1, e2⟩ := StatBuf.run_kind hist h.bound hnd
    rw [hnd0] at e1; cases e1
    exact ⟨nd.size, nd, hnd, e2.trans hk0, rfl⟩
  have none_ : ∀ e, ¬ Edits (run s hist) c i op e := by
    intro e he
    cases he with
    | write g | writev g | pwrite g | ftruncate g => exact hno (hfam c (has_open g))
    | truncate hcg hl | openTrunc hcg hl =>
      exact hn _ ((plainly_iff _).2 fun n hn => Good.proper (hR.inv.gp hcg _ n hn)) hl
  exact Follow.ideal_bytes ((content_step hR ⟨m, hf⟩ (by unfold Kernel.Exists; rw [hnd']; simp)).2.1 none_)

/-- C116.  When nobody has a descriptor for it any more, it is gone, and for good. -/
theorem scratch_gone_partial {E : Nat → Prop} {i : Nat} {s : State} (h : Start E i s) {hist : List (Nat × Op)} (hc : Calm s hist)
    (hnone : ∀ k, ¬ Has (run s hist) k (.file i)) (more : List (Nat × Op)) : (run (run s hist) more).fs.inodes i = none := by
  obtain ⟨hR, hn, -, hb⟩ := walk_on h.reach h.bound h.nameless h.only hc
  have gone : ¬ Kernel.Exists (run s hist) i := by
    intro hx
    unfold Kernel.Exists at hx
    cases hnd : (run s hist).fs.inodes i with
    | none => exact hx hnd
    | some nd =>
      obtain ⟨n, nd0, hnd0, hk0, -⟩ := h.file
      obtain ⟨nd1, e1, e2⟩ := StatBuf.run_kind hist h.bound hnd
      rw [hnd0] at e1; cases e1
      have hk : nd.kind = .file := e2.trans hk0
      rcases (exists_iff_named_or_open_partial hR i).1 nd hnd (by rw [hk]; simp) (by rw [hk]; simp) with g | g
      · rw [noNames hR hn] at g; omega
      · rw [Redirect.count_zero rfl (fun k fd => ?_)] at g
        · omega
        · cases hs : slot (run s hist) k fd with
          | none => rfl
          | some d =>
            cases d with
            | file j pos f =>
              by_cases e : j = i
              · subst e; exact absurd ⟨fd, pos, f, hs⟩ (hnone k)
              · simp [isFileOf, e]
            | _ => rfl
  cases hnd : (run (run s hist) more).fs.inodes i with
  | none => rfl
  | some nd =>
    rcases (run_exists (i := i) (s := run s hist) (h := more) (by unfold Kernel.Exists; rw [hnd]; simp)).2 with g | g
    · exact absurd g gone
    · omega

end Verif.Scratch
