import Verif.NameConcReach

/-! Steps that change nothing but the place of the thread, and the ends of calls that fail. -/

namespace Verif.NameConc
open Verif.Path Verif.Fs

/-- What is seen of a step. -/
def obs (s s' : State) (t : Nat) : List Ev :=
  match s.call t, s'.call t, s'.res t with
  | some _, none, some o => [.ret t o]
  | _, _, _ => []

theorem observe_go {s : State} {t : Nat} (hd : s.dead = false) : observe s (.go t) = obs s (go s t) t := by
  simp only [observe, obs, step, hd]; rfl

/-- The specification can follow the step. -/
def Sim (N : Nat) (s : State) (A : Abs) (t : Nat) (s' : State) : Prop := ∃ A', A.Runs (obs s s' t) A' ∧ Rel N s' A'

/-- The same but for the log and the socket names. -/
structure Quiet (a b : Fs) : Prop where
  inodes : b.inodes = a.inodes
  next : b.next = a.next
  fobj : b.fobj = a.fobj
  disk : b.disk = a.disk

theorem Quiet.refl (a : Fs) : Quiet a a := ⟨rfl, rfl, rfl, rfl⟩

variable {N : Nat} {s : State} {A : Abs} {t : Nat} {c : Call}

theorem obs_to {fs' : Fs} {held' : Nat → Nat} {q : Pc} (hc : s.call t = some c) :
    obs s { s with fs := fs', held := held', pc := upd s.pc t q } t = [] := by
  simp only [obs, hc]

theorem obs_fin {fs' : Fs} {held' : Nat → Nat} {q : Pc} {o : Out} (hc : s.call t = some c) :
    obs s { s with fs := fs', held := held', pc := upd s.pc t q, call := upd s.call t none, res := upd s.res t (some o) } t = [.ret t o] := by
  simp only [obs, hc, upd_same]

theorem Rel.callOf (R : Rel N s A) {o : Option Out} (h : A.pend t = some (c, o)) : s.call t = some c := by
  rw [R.call, h]; rfl

theorem Rel.lt (R : Rel N s A) {o : Option Out} (h : A.pend t = some (c, o)) : t < N := by
  refine R.t_lt (fun e => ?_)
  have := R.thr t c o h
  rw [e] at this; exact this

theorem Sim.move (R : Rel N s A) {o : Option Out} (hp : A.pend t = some (c, o)) {fs' : Fs} {q : Pc} (hq : Quiet s.fs fs')
    (hfr : Fresh (s.to t fs' q)) (hs : ∀ i, sig q i = sig (s.pc t) i) (ti : TI A.fs c o q) : Sim N s A t (s.to t fs' q) := by
  refine ⟨A, ?_, ?_⟩
  · rw [show s.to t fs' q = { s with fs := fs', held := s.held, pc := upd s.pc t q } from rfl, obs_to (R.callOf hp)]; exact .refl A
  · refine R.toStep (A' := A) (o' := o) (held' := s.held) hp hfr ?_ R.inv (hq.next.trans R.next) (Stable.refl _ _) ti ?_
    · rw [← hp, upd_self]
    · intro i
      rw [hq.inodes, hq.fobj, hq.disk]
      exact (R.ino i).keep (hs i)

theorem Sim.ret (R : Rel N s A) {o o' : Out} (hp : A.pend t = some (c, some o)) {fs' : Fs} (hq : Quiet s.fs fs')
    (hfr : Fresh (s.fin t fs' o')) (hs : ∀ i, sig (s.pc t) i = {}) (ha : alike o o') : Sim N s A t (s.fin t fs' o') := by
  refine ⟨{ A with pend := upd A.pend t none }, ?_, ?_⟩
  · rw [show s.fin t fs' o' = { s with fs := fs', held := s.held, pc := upd s.pc t .idle, call := upd s.call t none, res := upd s.res t (some o') } from rfl,
      obs_fin (R.callOf hp)]
    exact .ret hp ha (.refl _)
  · refine R.finStep (held' := s.held) hp hfr rfl R.inv (hq.next.trans R.next) (Stable.refl _ _) ?_
    intro i
    rw [hq.inodes, hq.fobj, hq.disk]
    exact (R.ino i).keep (hs i).symm

theorem alike_refl (o : Out) : alike o o := by cases o <;> rfl

/-- The call takes effect with this step, without any effect on the file system. -/
theorem Abs.Runs.fix (hp : A.pend t = some (c, none)) {o : Out} (ha : atomic A.fs c = some (A.fs, o))
    (hh : holds A.held c o = A.held) {es : List Ev} {B : Abs} (h : Abs.Runs { A with pend := upd A.pend t (some (c, some o)) } es B) :
    A.Runs es B := by
  refine .commit hp ha ?_
  rw [hh]; exact h

theorem Sim.fail (R : Rel N s A) {o o' : Out} (hp : A.pend t = some (c, none)) 
    (hfr : Fresh (s.fin t s.fs o')) (hs : ∀ i, sig (s.pc t) i = {}) (ha : atomic A.fs c = some (A.fs, o))
    (hal : alike o o') (hh : holds A.held c o = A.held) : Sim N s A t (s.fin t s.fs o') := by
  refine ⟨{ A with pend := upd A.pend t none }, ?_, ?_⟩
  · rw [show s.fin t s.fs o' = { s with fs := s.fs, held := s.held, pc := upd s.pc t .idle, call := upd s.call t none, res := upd s.res t (some o') } from rfl,
      obs_fin (R.callOf hp)]
    refine Abs.Runs.fix hp ha hh (.ret (upd_same _ _ _) hal ?_)
    rw [show upd (upd A.pend t (some (c, some o))) t none = upd A.pend t none from upd_upd _ _ _ _]
    exact .refl _
  · refine R.finStep (held' := s.held) hp hfr rfl R.inv R.next (Stable.refl _ _) ?_
    intro i
    exact (R.ino i).keep (hs i).symm

theorem Sim.fail' (R : Rel N s A) {o : Out} (hp : A.pend t = some (c, none))
    (hfr : Fresh (s.fin t s.fs o)) (hs : ∀ i, sig (s.pc t) i = {}) (ha : atomic A.fs c = some (A.fs, o))
    (hh : holds A.held c o = A.held) : Sim N s A t (s.fin t s.fs o) := .fail R hp hfr hs ha (alike_refl o) hh

/-- The call takes effect, and the thread goes on. -/
theorem Sim.commitTo (R : Rel N s A) (hp : A.pend t = some (c, none)) {fs' g' : Fs} {q : Pc} {o : Out}
    (hfr : Fresh (s.to t fs' q)) (ha : atomic A.fs c = some (g', o))
    (inv : FsInv g' (holds A.held c o)) (next : fs'.next = g'.next) (hst : Stable A.fs g' c.changes) (ti : TI g' c (some o) q)
    (ino : ∀ i, InoRel N (upd (fun u => sig (s.pc u) i) t (sig q i)) (fs'.inodes i) (g'.inodes i) (fs'.fobj i) (g'.fobj i)
      (fs'.disk i) (g'.disk i) (s.held i) (holds A.held c o i)) : Sim N s A t (s.to t fs' q) := by
  refine ⟨{ fs := g', held := holds A.held c o, pend := upd A.pend t (some (c, some o)) }, ?_, ?_⟩
  · rw [show s.to t fs' q = { s with fs := fs', held := s.held, pc := upd s.pc t q } from rfl, obs_to (R.callOf hp)]
    exact .commit hp ha (.refl _)
  · exact R.toStep (o' := some o) (held' := s.held) hp hfr rfl inv next hst ti ino

/-- The call takes effect and returns. -/
theorem Sim.commitFin (R : Rel N s A) (hp : A.pend t = some (c, none)) {fs' g' : Fs} {held' : Nat → Nat} {o : Out}
    (hfr : Fresh { s.fin t fs' o with held := held' }) (ha : atomic A.fs c = some (g', o))
    (inv : FsInv g' (holds A.held c o)) (next : fs'.next = g'.next) (hst : Stable A.fs g' c.changes)
    (ino : ∀ i, InoRel N (upd (fun u => sig (s.pc u) i) t {}) (fs'.inodes i) (g'.inodes i) (fs'.fobj i) (g'.fobj i)
      (fs'.disk i) (g'.disk i) (held' i) (holds A.held c o i)) : Sim N s A t { s.fin t fs' o with held := held' } := by
  refine ⟨{ fs := g', held := holds A.held c o, pend := upd A.pend t none }, ?_, ?_⟩
  · rw [show ({ s.fin t fs' o with held := held' } : State) = { s with fs := fs', held := held', pc := upd s.pc t .idle, call := upd s.call t none, res := upd s.res t (some o) } from rfl,
      obs_fin (R.callOf hp)]
    refine .commit hp ha (.ret (upd_same _ _ _) (alike_refl o) ?_)
    dsimp only
    rw [upd_upd]
    exact .refl _
  · exact R.finStep (held' := held') hp hfr rfl inv next hst ino

/-! ## The end of a walk -/

theorem atomic_link_undo {g : Fs} {i : Nat} {nd : Inode} (hi : g.inodes i = some nd) :
    (g.set i (some { nd with link := nd.link + 1 })).set i (some { nd with link := nd.link + 1 - 1 }) = g := by
  have h1 : ({ nd with link := nd.link + 1 - 1 } : Inode) = nd := by simp
  rw [h1]
  simp only [Fs.set, upd_upd, ← hi, upd_self]

theorem sim_arrive (R : Rel N s A) (hp : A.pend t = some (c, none)) {p : List Name} {r : Option Nat × Option Nat} {gl : Goal}
    (hw : A.fs.walk p = some r) (hg : GoalOk A.fs c p gl) (hs : ∀ i, sig (s.pc t) i = sig (.walk p [] none none gl) i)
    (hfr : Fresh (arrive s t p r gl)) : Sim N s A t (arrive s t p r gl) := by
  have T := R.tree
  cases gl with
  | mkdir m =>
    simp only [GoalOk] at hg
    subst hg
    obtain ⟨_ | i, _ | par⟩ := r <;> simp only [arrive] at hfr ⊢
    · exact .fail' R hp hfr hs (by simp [atomic, atomic.conv, Fs.mkdir, hw]) rfl
    · split at hfr <;> rename_i hm
      · simp only [hm, if_true] at hfr ⊢
        exact .fail' R hp hfr hs (by simp only [atomic, Fs.mkdir, hw, hm]; rfl) rfl
      · simp only [hm] at hfr ⊢
        exact .move R hp (.refl _) hfr (fun i => (hs i).symm) ⟨rfl, .inl ⟨m, rfl, rfl, by simpa using hm⟩, hw⟩
    · exact .fail' R hp hfr hs (by simp [atomic, atomic.conv, Fs.mkdir, hw]) rfl
    · exact .fail' R hp hfr hs (by simp [atomic, atomic.conv, Fs.mkdir, hw]) rfl
  | mknod m dev =>
    simp only [GoalOk] at hg
    subst hg
    obtain ⟨_ | i, _ | par⟩ := r <;> simp only [arrive] at hfr ⊢
    · exact .fail' R hp hfr hs (by simp [atomic, atomic.conv, Fs.mknod, hw]) rfl
    · split at hfr <;> rename_i hm
      · simp only [hm, if_true] at hfr ⊢
        exact .fail' R hp hfr hs (by simp only [atomic, Fs.mknod, hw, hm]; rfl) rfl
      · simp only [hm] at ⊢
        split at hfr <;> rename_i hm'
        · simp only [hm', if_true] at hfr ⊢
          exact .fail' R hp hfr hs (by simp only [atomic, Fs.mknod, hw, hm, hm']; rfl) rfl
        · simp only [hm', if_false] at hfr ⊢
          exact .move R hp (.refl _) hfr (fun i => (hs i).symm) ⟨rfl, .inr (.inl ⟨m, dev, rfl, rfl, by simpa using hm, hm'⟩), hw⟩
    · exact .fail' R hp hfr hs (by simp [atomic, atomic.conv, Fs.mknod, hw]) rfl
    · exact .fail' R hp hfr hs (by simp [atomic, atomic.conv, Fs.mknod, hw]) rfl
  | «open» fl m =>
    simp only [GoalOk] at hg
    subst hg
    obtain ⟨_ | i, _ | par⟩ := r <;> simp only [arrive] at hfr ⊢
    · exact .fail' R hp hfr hs (by simp [atomic, atomic.conv, Fs.openP, hw]) rfl
    · split at hfr <;> rename_i h1
      · simp only [h1, if_true] at hfr ⊢
        exact .fail' R hp hfr hs (by simp only [atomic, Fs.openP, hw, h1]; rfl) rfl
      · simp only [h1, if_false] at ⊢
        split at hfr <;> rename_i h2
        · simp only [h2, if_true] at hfr ⊢
          exact .fail' R hp hfr hs (by simp only [atomic, Fs.openP, hw, h1, h2]; rfl) rfl
        · simp only [h2, if_false] at ⊢
          split at hfr <;> rename_i h3
          · simp only [h3, if_true] at hfr ⊢
            exact .fail' R hp hfr hs (by simp only [atomic, Fs.openP, hw, h1, h2, h3]; rfl) rfl
          · simp only [h3] at hfr ⊢
            exact .move R hp (.refl _) hfr (fun i => (hs i).symm)
              ⟨rfl, .inr (.inr ⟨fl, m, rfl, rfl, h1, h2, by simpa using h3⟩), hw⟩
    · exact .move R hp (.refl _) hfr (fun i => (hs i).symm) ⟨rfl, ⟨m, rfl⟩, ⟨_, hw⟩⟩
    · exact .move R hp (.refl _) hfr (fun i => (hs i).symm) ⟨rfl, ⟨m, rfl⟩, ⟨_, hw⟩⟩
  | linkOld new =>
    obtain ⟨rfl, hne⟩ := hg
    have hl : ∃ name, new.getLast? = some name := by
      cases h : new.getLast? with
      | none => simp at h; exact absurd h hne
      | some x => exact ⟨x, rfl⟩
    obtain ⟨name, hl⟩ := hl
    obtain ⟨_ | i, par⟩ := r <;> simp only [arrive] at hfr ⊢
    · exact .fail' R hp hfr hs (by simp [atomic, atomic.conv, Fs.link, hw, hl]) rfl
    · exact .move R hp (.refl _) hfr (fun i => (hs i).symm) ⟨rfl, rfl, hne, ⟨_, hw⟩⟩
  | linkNew i old =>
    obtain ⟨rfl, hne, hpl⟩ := hg
    have hpl' := hpl
    obtain ⟨⟨⟨b, hwo⟩⟩, nd, hi, hd⟩ := hpl'
    have hl : ∃ name, p.getLast? = some name := by
      cases h : p.getLast? with
      | none => simp at h; exact absurd h hne
      | some x => exact ⟨x, rfl⟩
    obtain ⟨name, hl⟩ := hl
    have hfx : ∀ o : Out, atomic A.fs (.link old p) = some (A.fs, o) → ∀ q, TI A.fs (.link old p) (some o) q →
        (∀ i, sig q i = sig (s.pc t) i) → Fresh (s.to t s.fs q) → Sim N s A t (s.to t s.fs q) := by
      intro o ha q ti hq hfr
      have hh : holds A.held (.link old p) o = A.held := by
        cases o with
        | ret => rfl
        | stat => rfl
        | opened i z =>
          exfalso
          simp only [atomic, atomic.conv] at ha
          split at ha
          · cases ha
          · simp at ha
      refine .commitTo (fs' := s.fs) R hp hfr ha ?_ R.next (Stable.refl _ _) ti ?_
      · rw [hh]; exact R.inv
      · intro j; rw [hh]; exact (R.ino j).keep (hq j)
    have hset := walk_set (fs := A.fs) (nd' := { nd with link := nd.link + 1 }) hi rfl rfl p
    obtain ⟨_ | k, par⟩ := r
    · cases par with
      | none =>
        simp only [arrive] at hfr ⊢
        refine hfx (.ret (.err .ENOENT)) ?_ _ ⟨rfl, ⟨p, rfl⟩, hpl⟩ (fun j => (hs j).symm) hfr
        simp only [atomic, Fs.link, hl, hwo, hi, hd, hset, hw, atomic_link_undo hi]
        rfl
      | some par =>
        simp only [arrive] at hfr ⊢
        exact .move R hp (.refl _) hfr (fun i => (hs i).symm) ⟨rfl, rfl, hpl, hw⟩
    · simp only [arrive] at hfr ⊢
      refine hfx (.ret (.err .EEXIST)) ?_ _ ⟨rfl, ⟨p, rfl⟩, hpl⟩ (fun j => (hs j).symm) hfr
      simp only [atomic, Fs.link, hl, hwo, hi, hd, hset, hw, atomic_link_undo hi]
      rfl
  | unlink =>
    simp only [GoalOk] at hg
    subst hg
    obtain ⟨_ | i, par⟩ := r
    · simp only [arrive] at hfr ⊢
      exact .fail' R hp hfr hs (by simp [atomic, atomic.conv, Fs.unlink, hw]) rfl
    · cases par with
      | none =>
        simp only [arrive] at hfr ⊢
        exact .fail' R hp hfr hs (by simp [atomic, atomic.conv, Fs.unlink, hw]) rfl
      | some par =>
        simp only [arrive] at hfr ⊢
        exact .move R hp (.refl _) hfr (fun i => (hs i).symm) ⟨rfl, rfl, hw⟩
  | rmdir =>
    simp only [GoalOk] at hg
    subst hg
    obtain ⟨_ | i, par⟩ := r
    · simp only [arrive] at hfr ⊢
      exact .fail' R hp hfr hs (by simp [atomic, atomic.conv, Fs.rmdir, hw]) rfl
    · cases par with
      | none =>
        simp only [arrive] at hfr ⊢
        exact .fail' R hp hfr hs (by simp [atomic, atomic.conv, Fs.rmdir, hw]) rfl
      | some par =>
        simp only [arrive] at hfr ⊢
        exact .move R hp (.refl _) hfr (fun i => (hs i).symm) ⟨rfl, rfl, hw⟩
  | renameOld new =>
    simp only [GoalOk] at hg
    subst hg
    obtain ⟨_ | i, par⟩ := r
    · simp only [arrive] at hfr ⊢
      exact .fail' R hp hfr hs (by simp [atomic, atomic.conv, Fs.rename, hw]) rfl
    · cases par with
      | none =>
        simp only [arrive] at hfr ⊢
        exact .fail' R hp hfr hs (by simp [atomic, atomic.conv, Fs.rename, hw]) rfl
      | some par =>
        simp only [arrive] at hfr ⊢
        obtain ⟨x, hx, -⟩ := T.root
        exact .move R hp (.refl _) hfr (fun i => (hs i).symm) ⟨rfl, ⟨[], rfl, by simp [Fs.walk, hx, walkFrom]⟩, rfl, hw⟩
  | renameNew i par old =>
    obtain ⟨rfl, hwo⟩ := hg
    obtain ⟨k, par'⟩ := r
    simp only [arrive] at hfr ⊢
    split at hfr <;> rename_i h1
    · rw [if_pos h1]
      exact .fail' R hp hfr hs (by simp only [atomic, Fs.rename, hwo, hw]; simp [h1, atomic.conv]) rfl
    · rw [if_neg h1]
      have h1 : par' = some par := Classical.not_not.1 h1
      refine .move R hp (.refl _) hfr (fun i => (hs i).symm) ⟨rfl, rfl, hwo, k, ?_⟩
      rw [hw, h1]
  | stat =>
    simp only [GoalOk] at hg
    subst hg
    obtain ⟨_ | i, par⟩ := r
    · simp only [arrive] at hfr ⊢
      exact .fail' R hp hfr hs (by simp [atomic, Fs.stat, hw]) rfl
    · simp only [arrive] at hfr ⊢
      exact .move R hp (.refl _) hfr (fun i => (hs i).symm) ⟨rfl, rfl, ⟨_, hw⟩⟩
  | chmod m =>
    simp only [GoalOk] at hg
    subst hg
    obtain ⟨_ | i, par⟩ := r
    · simp only [arrive] at hfr ⊢
      exact .fail' R hp hfr hs (by simp [atomic, atomic.conv, Fs.chmod, hw]) rfl
    · simp only [arrive] at hfr ⊢
      split at hfr <;> rename_i h1
      · simp only [h1, if_true] at hfr ⊢
        exact .move R hp (.refl _) hfr (fun i => (hs i).symm) ⟨rfl, rfl, h1, ⟨_, hw⟩⟩
      · simp only [h1, if_false] at hfr ⊢
        exact .fail' R hp hfr hs (by simp [atomic, atomic.conv, Fs.chmod, Fs.chmodIno, hw, h1]) rfl

end Verif.NameConc
