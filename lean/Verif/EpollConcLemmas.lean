import Verif.EpollConcSpec
import Verif.EpollProps

/-! Helper lemmas for `EpollConcProps.lean`. -/

namespace Verif.EpollConc

open Verif.Select

/-- The entry a thread has for writing. -/
def holds : Pc → Option Nat
  | .ctl2 ep _ _ _ => some ep
  | .scan ep _ _ _ => some ep
  | .poll ep _ _ _ _ => some ep
  | .inUse fd true => some fd
  | _ => none

theorem holds_idle : holds .idle = none := rfl

/-- An entry for poll comes from a registration. -/
def From (m : Reg) (x : PollFd) : Prop := 0 ≤ x.fd ∧ ∃ e, m.get x.fd.toNat = some e ∧ x.events = toPoll e.events

/-- What a thread in epoll may rely on about the entry it has. -/
def Wf (o : Option Obj) : Pc → Prop
  | .ctl2 ep _ fd _ => ep < 1024 ∧ fd < 1024 ∧ fd ≠ ep ∧ ∃ m, o = some (.epoll m)
  | .scan ep max todo polls => ep < 1024 ∧ 0 < max ∧ ∃ m, o = some (.epoll m) ∧ (∀ p ∈ todo, m.get p.1 = some p.2) ∧ (∀ x ∈ polls, From m x) ∧
      (polls.map (·.fd.toNat) ++ todo.map (·.1)).Nodup
  | .poll ep max todo done hit => ep < 1024 ∧ 0 < max ∧ ∃ m, o = some (.epoll m) ∧ (∀ x ∈ done ++ todo, From m x) ∧
      ((done ++ todo).map (·.fd.toNat)).Nodup ∧ (∀ x ∈ done, x.revents = pollNval ∨ x.revents &&& x.events = x.revents) ∧
      (hit ≠ 0 → ∃ x ∈ done, x.revents ≠ 0)
  | _ => True

structure Inv (s : St) : Prop where
  own : ∀ t fd, holds (s.pc t) = some fd ↔ s.wr fd = some t
  wf : ∀ t ep, holds (s.pc t) = some ep → Wf (s.slot ep) (s.pc t)
  keys : ∀ fd m, s.slot fd = some (.epoll m) → Keys m
  rdr : ∀ t fd, s.pc t = .inUse fd false ↔ t ∈ s.rd fd
  small : ∀ t fd, s.pc t = .close2 fd → fd < 1024

theorem Inv.init : Inv .init := by
  constructor <;> simp [St.init, holds]

theorem upd_same {α : Type} (f : Nat → α) (i : Nat) (v : α) : upd f i v i = v := by simp [upd]
theorem upd_ne {α : Type} (f : Nat → α) {i j : Nat} (v : α) (h : j ≠ i) : upd f i v j = f j := by simp [upd, h]
theorem upd_self {α : Type} (f : Nat → α) (i : Nat) : upd f i (f i) = f := by
  funext j; simp only [upd]; split <;> simp_all

/-- A move of thread `t` that changes only what it may. -/
theorem Inv.move {s s' : St} {t : Nat} {p : Pc} (h : Inv s)
    (hpc : s'.pc = upd s.pc t p)
    (hwr : ∀ fd, s'.wr fd = if holds p = some fd then some t else if holds (s.pc t) = some fd then none else s.wr fd)
    (hget : ∀ fd, holds p = some fd → s.wr fd = none ∨ holds (s.pc t) = some fd)
    (hslot : ∀ fd, s'.slot fd ≠ s.slot fd → s.wr fd = none ∨ s.wr fd = some t)
    (hwf : ∀ fd, holds p = some fd → Wf (s'.slot fd) p)
    (hkeys : ∀ fd m, s'.slot fd = some (.epoll m) → Keys m)
    (hrd : ∀ fd u, u ∈ s'.rd fd ↔ (if u = t then p = .inUse fd false else u ∈ s.rd fd))
    (hsm : ∀ fd, p = .close2 fd → fd < 1024) : Inv s' := by
  constructor
  · intro u fd
    rw [hwr fd, hpc]
    by_cases hu : u = t
    · subst hu
      rw [upd_same]
      have := h.own u fd
      grind
    · rw [upd_ne _ _ hu]
      have h1 := h.own u fd
      have h2 := h.own t fd
      have h3 := hget fd
      grind
  · intro u ep hh
    rw [hpc] at hh ⊢
    by_cases hu : u = t
    · subst hu
      rw [upd_same] at hh ⊢
      exact hwf ep hh
    · rw [upd_ne _ _ hu] at hh ⊢
      have h1 := (h.own u ep).1 hh
      have : s'.slot ep = s.slot ep := by
        by_cases he : s'.slot ep = s.slot ep
        · exact he
        · have := hslot ep he
          rw [h1] at this
          simp [hu] at this
      rw [this]
      exact h.wf u ep hh
  · exact hkeys
  · intro u fd
    rw [hrd fd u, hpc]
    by_cases hu : u = t
    · subst hu; rw [upd_same]; simp
    · rw [upd_ne _ _ hu]; simp only [hu, if_false]; exact h.rdr u fd
  · intro u fd hh
    rw [hpc] at hh
    by_cases hu : u = t
    · subst hu; rw [upd_same] at hh; exact hsm fd hh
    · rw [upd_ne _ _ hu] at hh; exact h.small u fd hh

/-! ## The program's view of a state -/

structure Rel (s : St) (σ : Sp) : Prop where
  fd : ∀ fd, σ.fd fd = (s.slot fd).map Obj.abs
  seen : ∀ t ep max todo done hit, s.pc t = .poll ep max todo done hit → ∀ x ∈ done, σ.seen t x.fd.toNat = x.revents

theorem Rel.init : Rel .init .init := by
  constructor <;> simp [St.init, Sp.init]

theorem Rel.move {s s' : St} {σ σ' : Sp} {t : Nat} {p : Pc} (h : Rel s σ)
    (hpc : s'.pc = upd s.pc t p)
    (hfd : ∀ fd, σ'.fd fd = (s'.slot fd).map Obj.abs)
    (hseen : ∀ u, u ≠ t → σ'.seen u = σ.seen u)
    (hp : ∀ ep max todo done hit, p = .poll ep max todo done hit → ∀ x ∈ done, σ'.seen t x.fd.toNat = x.revents) : Rel s' σ' := by
  constructor
  · exact hfd
  · intro u ep max todo done hit hu x hx
    rw [hpc] at hu
    by_cases e : u = t
    · subst e; rw [upd_same] at hu; exact hp _ _ _ _ _ hu x hx
    · rw [upd_ne _ _ e] at hu; rw [hseen u e]; exact h.seen _ _ _ _ _ _ hu x hx

/-- What each move must show. -/
def Good (s' : St) (σ : Sp) (l : List Note) : Prop := Inv s' ∧ Allowed σ l ∧ Rel s' (afterAll σ l)

/-- A move that only changes where the thread is, from a place without locks to one without. -/
theorem idle_inv {s : St} {t : Nat} {p : Pc} (h : Inv s) (h0 : holds (s.pc t) = none) (h1 : ∀ fd, s.pc t ≠ .inUse fd false)
    (p0 : holds p = none) (p1 : ∀ fd, p ≠ .inUse fd false) (p2 : ∀ fd, p = .close2 fd → fd < 1024) :
    Inv { s with pc := upd s.pc t p } := by
  refine h.move (t := t) (p := p) rfl ?_ ?_ ?_ ?_ ?_ ?_ p2
  · intro fd; simp [h0, p0]
  · intro fd hh; rw [p0] at hh; cases hh
  · intro fd hh; exact absurd rfl hh
  · intro fd hh; rw [p0] at hh; cases hh
  · exact h.keys
  · intro fd u
    by_cases hu : u = t
    · subst hu
      have := (h.rdr u fd).2
      simp only [p1 fd, if_true, iff_false]
      intro hm; exact h1 fd (this hm)
    · simp [hu]

theorem same_rel {s s' : St} {σ : Sp} {t : Nat} {p : Pc} (h : Rel s σ) (hpc : s'.pc = upd s.pc t p) (hsl : s'.slot = s.slot)
    (hp : ∀ ep max todo done hit, p = .poll ep max todo done hit → done = []) : Rel s' σ := by
  refine h.move hpc ?_ (fun _ _ => rfl) ?_
  · intro fd; rw [hsl]; exact h.fd fd
  · intro ep max todo done hit e x hx; rw [hp _ _ _ _ _ e] at hx; cases hx

theorem free_iff {s : St} {fd : Nat} : s.free fd = true ↔ s.wr fd = none ∧ s.rd fd = [] := by
  simp [St.free]

theorem begin_ok {s s' : St} {σ : Sp} {t : Nat} {c : Call} {l : List Note} (h : Inv s) (r : Rel s σ)
    (hs : step s (.begin t c) = some (s', l)) : Good s' σ l := by
  simp only [step] at hs
  split at hs
  · rename_i hp
    cases hs
    exact ⟨idle_inv h (by rw [hp]; rfl) (by rw [hp]; simp) rfl (by simp) (by simp), trivial,
      same_rel r rfl rfl (by simp)⟩
  · cases hs

theorem abs_epoll {o : Option Obj} {m : Nat → Option Ev} (h : o.map Obj.abs = some (.epoll m)) : ∃ k, o = some (.epoll k) ∧ m = k.get := by
  cases o with
  | none => cases h
  | some o => cases o <;> simp_all [Obj.abs]

theorem first_ok {s s' : St} {σ : Sp} {t : Nat} {c : Call} {l : List Note} (h : Inv s) (r : Rel s σ) (hp : s.pc t = .want c)
    (hs : first s t c = some (s', l)) : Good s' σ l := by
  have h0 : holds (s.pc t) = none := by rw [hp]; rfl
  have h1 : ∀ fd, s.pc t ≠ .inUse fd false := by rw [hp]; simp
  have hidle : Inv { s with pc := upd s.pc t .idle } := idle_inv h h0 h1 rfl (by simp) (by simp)
  have ridle : Rel { s with pc := upd s.pc t .idle } σ := same_rel r rfl rfl (by simp)
  have hw : ∀ fd u, s.wr fd = some u → holds (s.pc t) = some fd → False := by intro fd u _ hh; rw [h0] at hh; cases hh
  have lockInv : ∀ (ep : Nat) (p : Pc), s.free ep = true → holds p = some ep → (∀ fd, p ≠ .inUse fd false) → (∀ fd, p ≠ .close2 fd) →
      Wf (s.slot ep) p → Inv { s with wr := upd s.wr ep (some t), pc := upd s.pc t p } := by
    intro ep p hf hh hu h2 hwf
    have hf := free_iff.1 hf
    refine h.move (t := t) (p := p) rfl ?_ ?_ ?_ ?_ ?_ ?_ ?_
    · intro fd
      by_cases e : fd = ep
      · subst e; simp [upd_same, hh]
      · dsimp only; rw [upd_ne _ _ e, hh, h0]
        have : ¬ (ep = fd) := fun x => e x.symm
        simp [this]
    · intro fd hx; rw [hh] at hx; cases hx; exact .inl hf.1
    · intro fd hx; exact absurd rfl hx
    · intro fd hx; rw [hh] at hx; cases hx; exact hwf
    · exact h.keys
    · intro fd u
      by_cases e : u = t
      · subst e
        simp only [if_true, hu fd, iff_false]
        exact fun hm => h1 fd ((h.rdr u fd).2 hm)
      · simp [e]
    · intro fd hx; exact absurd hx (h2 fd)
  cases c with
  | ctl ep op fd ev =>
    simp only [first] at hs
    split at hs
    · rename_i hc
      cases hs
      have : σ.ctl ep op fd ev = (.err .EBADF, σ) := by simp only [Sp.ctl, hc, if_true]
      refine ⟨hidle, ⟨?_, trivial⟩, ?_⟩
      · simp only [Sp.allows, this]
      · simpa only [afterAll, Sp.after, this] using ridle
    · rename_i hc
      split at hs
      · cases hs
      · rename_i hf
        simp only [Bool.not_eq_false] at hf
        have hep := r.fd ep
        split at hs
        · rename_i hn
          cases hs
          rw [hn] at hep
          have : σ.ctl ep op fd ev = (.err .EBADF, σ) := by simp only [Sp.ctl, hc, if_false, hep, Option.map_none]
          refine ⟨hidle, ⟨?_, trivial⟩, ?_⟩
          · simp only [Sp.allows, this]
          · simpa only [afterAll, Sp.after, this] using ridle
        · rename_i m hm
          rw [hm] at hep
          split at hs
          · rename_i he
            cases hs
            have : σ.ctl ep op fd ev = (.err .EINVAL, σ) := by
              simp only [Option.map_some, Obj.abs] at hep
              rw [Sp.ctl, if_neg hc, hep]; simp [he]
            refine ⟨hidle, ⟨?_, trivial⟩, ?_⟩
            · simp only [Sp.allows, this]
            · simpa only [afterAll, Sp.after, this] using ridle
          · rename_i he
            cases hs
            refine ⟨lockInv ep _ hf rfl (by simp) (by simp) ⟨by omega, by omega, he, m, hm⟩, trivial, same_rel r rfl rfl (by simp)⟩
        · rename_i o hne ho
          cases hs
          have : σ.ctl ep op fd ev = (.err .EINVAL, σ) := by
            rw [ho] at hep
            cases o with
            | epoll m => exact absurd rfl (hne m)
            | file => simp only [Sp.ctl, hc, if_false, hep, Option.map_some, Obj.abs]
            | plain => simp only [Sp.ctl, hc, if_false, hep, Option.map_some, Obj.abs]
          refine ⟨hidle, ⟨?_, trivial⟩, ?_⟩
          · simp only [Sp.allows, this]
          · simpa only [afterAll, Sp.after, this] using ridle
  | wait ep max =>
    simp only [first] at hs
    have hep := r.fd ep
    split at hs
    · rename_i hc
      cases hs
      exact ⟨hidle, ⟨.inr (.inl ⟨rfl, .inl hc⟩), trivial⟩, ridle⟩
    · rename_i hc
      split at hs
      · cases hs
      · rename_i hf
        simp only [Bool.not_eq_false] at hf
        split at hs
        · rename_i hn
          cases hs
          rw [hn] at hep
          exact ⟨hidle, ⟨.inr (.inl ⟨rfl, .inr hep⟩), trivial⟩, ridle⟩
        · rename_i m hm
          split at hs
          · rename_i hmax
            cases hs
            exact ⟨hidle, ⟨.inr (.inr ⟨rfl, .inl hmax⟩), trivial⟩, ridle⟩
          · rename_i hmax
            cases hs
            have hk := h.keys ep m hm
            refine ⟨lockInv ep _ hf rfl (by simp) (by simp) ⟨by omega, by omega, m, hm, ?_, by simp, ?_⟩, trivial, same_rel r rfl rfl (by simp)⟩
            · intro p hpm; exact mem_get hk hpm
            · simpa [Keys] using hk
        · rename_i o hne ho
          cases hs
          rw [ho] at hep
          refine ⟨hidle, ⟨.inr (.inr ⟨rfl, .inr ⟨by rw [hep]; simp, ?_⟩⟩), trivial⟩, ridle⟩
          intro m hm
          rw [hep] at hm
          obtain ⟨k, hk, -⟩ := abs_epoll hm
          exact hne k (Option.some.inj hk)
  | close fd =>
    simp only [first] at hs
    split at hs
    · rename_i hc; cases hs
      exact ⟨hidle, ⟨.inr (.inr ⟨rfl, hc⟩), trivial⟩, ridle⟩
    · rename_i hc
      split at hs
      · cases hs
      · split at hs
        · rename_i hn
          cases hs
          exact ⟨hidle, ⟨.inr (.inl ⟨rfl, by rw [r.fd fd, hn]; rfl⟩), trivial⟩, ridle⟩
        · cases hs
          exact ⟨idle_inv h h0 h1 rfl (by simp) (by intro d e; cases e; omega), trivial, same_rel r rfl rfl (by simp)⟩
  | create fd k =>
    simp only [first] at hs
    split at hs
    · cases hs; exact ⟨hidle, ⟨.inr rfl, trivial⟩, ridle⟩
    · rename_i hc
      · obtain ⟨hc1, hc2, hn⟩ : fd < 1024 ∧ s.free fd = true ∧ s.slot fd = none := by
          simp only [not_or, Classical.not_not, Bool.not_eq_false] at hc; exact ⟨by omega, hc.2⟩
        cases hs
        have hf := free_iff.1 hc2
        refine ⟨?_, ⟨.inl ⟨by rw [r.fd fd, hn]; rfl, rfl⟩, trivial⟩, ?_⟩
        · refine hidle.move (t := t) (p := .idle) ?_ ?_ ?_ ?_ ?_ ?_ ?_ (by simp)
          · funext u; simp only [upd]; split <;> simp_all
          · intro d; simp [holds, upd_same]
          · intro d hx; cases hx
          · intro d hx
            by_cases e : d = fd
            · subst e; exact .inl hf.1
            · exact absurd (upd_ne _ _ e) hx
          · intro d hx; cases hx
          · intro d m hm
            by_cases e : d = fd
            · subst e; simp only [upd_same] at hm
              cases k <;> simp [Kind.obj] at hm
              subst hm; simp [Keys]
            · simp only [upd_ne _ _ e] at hm; exact h.keys d m hm
          · intro d u
            have := hidle.rdr u d
            by_cases e : u = t
            · subst e; simp [upd_same] at this; simp [this]
            · simp [e]
        · refine r.move (t := t) (p := .idle) rfl ?_ (fun _ _ => rfl) (by simp)
          intro d
          simp only [afterAll, Sp.after, Sp.set, upd]
          by_cases e : d = fd
          · subst e; simp only [if_true, Option.map_some]
            cases k <;> simp [Kind.sobj, Kind.obj, Obj.abs]
            funext x; simp [Reg.get]
          · simp only [e, if_false]; exact r.fd d
  | other fd w =>
    simp only [first] at hs
    split at hs
    · cases hs; exact ⟨hidle, ⟨trivial, trivial⟩, ridle⟩
    · split at hs
      · rename_i hw
        subst hw
        split at hs
        · cases hs
        · rename_i hf
          simp only [Bool.not_eq_false] at hf
          cases hs
          exact ⟨lockInv fd _ hf rfl (by simp) (by simp) trivial, trivial, same_rel r rfl rfl (by simp)⟩
      · split at hs
        · cases hs
        · rename_i hf
          cases hs
          refine ⟨?_, trivial, same_rel r rfl rfl (by simp)⟩
          refine h.move (t := t) (p := .inUse fd false) rfl ?_ ?_ ?_ ?_ h.keys ?_ (by simp)
          · intro d; show s.wr d = if (none : Option Nat) = some d then _ else if holds (s.pc t) = some d then none else s.wr d; rw [h0]; simp
          · intro d hx; cases hx
          · intro d hx; exact absurd rfl hx
          · intro d hx; cases hx
          · intro d u
            by_cases e : d = fd
            · subst e
              simp only [upd_same, List.mem_cons]
              by_cases eu : u = t
              · simp [eu]
              · simp [eu]
            · dsimp only; rw [upd_ne _ _ e]
              by_cases eu : u = t
              · subst eu
                have : ¬ fd = d := fun x => e x.symm
                simp only [if_true, Pc.inUse.injEq, this, false_and, iff_false]
                exact fun hm => h1 d ((h.rdr u d).2 hm)
              · simp [eu]

/-- The end of a call that had `ep` for writing. -/
theorem release_inv {s : St} {t ep : Nat} {o : Option Obj} (h : Inv s) (hh : holds (s.pc t) = some ep)
    (hu : ∀ fd, s.pc t ≠ .inUse fd false) (hk : ∀ m, o = some (.epoll m) → Keys m) :
    Inv { s with slot := upd s.slot ep o, wr := upd s.wr ep none, pc := upd s.pc t .idle } := by
  refine h.move (t := t) (p := .idle) rfl ?_ ?_ ?_ ?_ ?_ ?_ (by simp)
  · intro fd
    dsimp only
    by_cases e : fd = ep
    · subst e; simp [upd_same, hh, holds_idle]
    · have : ¬ ep = fd := fun x => e x.symm
      rw [upd_ne _ _ e, hh]; simp [holds_idle, this]
  · intro fd hx; cases hx
  · intro fd hx
    by_cases e : fd = ep
    · subst e; exact .inr ((h.own t fd).1 hh)
    · exact absurd (upd_ne _ _ e) hx
  · intro fd hx; cases hx
  · intro fd m hm
    dsimp only at hm
    by_cases e : fd = ep
    · subst e; rw [upd_same] at hm; exact hk m hm
    · rw [upd_ne _ _ e] at hm; exact h.keys fd m hm
  · intro fd u
    by_cases e : u = t
    · subst e
      simp only [if_true, reduceCtorEq, iff_false]
      exact fun hm => hu fd ((h.rdr u fd).2 hm)
    · simp [e]

theorem release_inv' {s : St} {t ep : Nat} (h : Inv s) (hh : holds (s.pc t) = some ep)
    (hu : ∀ fd, s.pc t ≠ .inUse fd false) :
    Inv { s with wr := upd s.wr ep none, pc := upd s.pc t .idle } := by
  have := release_inv (o := s.slot ep) h hh hu (fun m hm => h.keys ep m hm)
  rwa [upd_self] at this

theorem second_ok {s s' : St} {σ : Sp} {t ep fd : Nat} {op : Int} {ev : Ev} {l : List Note} (h : Inv s) (r : Rel s σ)
    (hp : s.pc t = .ctl2 ep op fd ev) (hs : second s t ep op fd ev = some (s', l)) : Good s' σ l := by
  have hh : holds (s.pc t) = some ep := by rw [hp]; rfl
  have hwf := h.wf t ep hh
  rw [hp] at hwf
  obtain ⟨a1, a2, a3, m, hm⟩ := hwf
  have hep := r.fd ep
  have hfd := r.fd fd
  rw [hm] at hep
  simp only [second] at hs
  split at hs
  · cases hs
  · cases hs
    rw [hm]
    have b1 : ¬ ((ep : Int) < 0 ∨ (ep : Int) ≥ maxFd) := by unfold maxFd; omega
    have b2 : ¬ ((fd : Int) < 0 ∨ (fd : Int) ≥ maxFd) := by unfold maxFd; omega
    have b3 : ¬ ((fd : Int) = (ep : Int)) := by omega
    have b4 : ¬ (ep ≥ 1024 ∨ fd ≥ 1024) := by omega
    have key : ∃ m', putBack (some (.epoll m)) (epollCtl (.epoll m) ep op fd ((s.slot fd).map Obj.view) ev).1 = some (.epoll m') ∧ Keys m' ∧
        (σ.ctl ep op fd ev).1 = .ofRet (epollCtl (.epoll m) ep op fd ((s.slot fd).map Obj.view) ev).2 ∧
        ((σ.ctl ep op fd ev).2.fd = fun d => if d = ep then some (.epoll m'.get) else σ.fd d) ∧ (σ.ctl ep op fd ev).2.seen = σ.seen := by
      have same : ∀ r, σ.ctl ep op fd ev = (r, σ) →
          ((σ.ctl ep op fd ev).2.fd = fun d => if d = ep then some (.epoll m.get) else σ.fd d) ∧ (σ.ctl ep op fd ev).2.seen = σ.seen := by
        intro r e
        rw [e]
        refine ⟨?_, rfl⟩
        funext d
        by_cases hd : d = ep
        · subst hd; simp [hep, Obj.abs]
        · simp [hd]
      have hk := h.keys ep m hm
      simp only [Option.map_some, Obj.abs] at hep
      have gd : ∀ d, (m.del fd).get d = setReg m.get fd none d := by intro d; rw [get_del]; simp [setReg]
      have gp : ∀ d, (m.put fd ev).get d = setReg m.get fd (some ev) d := by intro d; rw [get_put]; simp [setReg]
      simp only [epollCtl, b1, b2, b3, if_false]
      have hc : σ.ctl ep op fd ev = match σ.fd fd with
        | none => (.err .EBADF, σ)
        | some (.epoll _) => (.err .EBADF, σ)
        | some .file => (.err .EPERM, σ)
        | some .plain =>
          if op = 1 then
            if (m.get fd).isSome then (.err .EEXIST, σ) else (.ok 0 [], σ.set ep (some (.epoll (setReg m.get fd (some ev)))))
          else if op = 2 then
            if (m.get fd).isSome then (.ok 0 [], σ.set ep (some (.epoll (setReg m.get fd none)))) else (.err .ENOENT, σ)
          else if op = 3 then
            if (m.get fd).isSome then (.ok 0 [], σ.set ep (some (.epoll (setReg m.get fd (some ev))))) else (.err .ENOENT, σ)
          else (.err .EINVAL, σ) := by
        rw [Sp.ctl, if_neg b4, hep]; simp only [a3, if_false]
        rcases σ.fd fd with _ | _ | _ | _ <;> rfl
      rw [hfd] at hc
      cases ho : s.slot fd with
      | none =>
        rw [ho] at hc
        simp only [Option.map_none] at hc
        exact ⟨m, rfl, hk, by rw [hc]; rfl, same _ hc⟩
      | some o =>
        rw [ho] at hc
        cases o with
        | epoll k =>
          simp only [Option.map_some, Obj.abs] at hc
          exact ⟨m, rfl, hk, by rw [hc]; rfl, same _ hc⟩
        | file =>
          simp only [Option.map_some, Obj.abs] at hc
          exact ⟨m, rfl, hk, by rw [hc]; rfl, same _ hc⟩
        | plain =>
          simp only [Option.map_some, Obj.abs, Obj.view] at hc ⊢
          simp only [Int.toNat_natCast]
          by_cases o2 : op = 2
          · subst o2
            cases hg : m.get fd with
            | none =>
              simp [hg] at hc
              exact ⟨m, rfl, hk, by rw [hc]; rfl, same _ hc⟩
            | some e =>
              simp [hg] at hc
              refine ⟨m.del fd, rfl, keys_filter _ hk, by rw [hc]; rfl, ?_, by rw [hc]; rfl⟩
              rw [hc]; simp only [Sp.set]; funext d; rw [show (m.del fd).get = setReg m.get fd none from funext gd]
          · by_cases o3 : op = 3
            · subst o3
              cases hg : m.get fd with
              | none =>
                simp [hg] at hc
                exact ⟨m, rfl, hk, by rw [hc]; rfl, same _ hc⟩
              | some e =>
                simp [hg] at hc
                refine ⟨m.put fd ev, rfl, keys_put hk, by rw [hc]; rfl, ?_, by rw [hc]; rfl⟩
                rw [hc]; simp only [Sp.set]; funext d; rw [show (m.put fd ev).get = setReg m.get fd (some ev) from funext gp]
            · by_cases o1 : op = 1
              · subst o1
                cases hg : m.get fd with
                | some e =>
                  simp [hg] at hc
                  exact ⟨m, rfl, hk, by rw [hc]; rfl, same _ hc⟩
                | none =>
                  simp [hg] at hc
                  refine ⟨m.put fd ev, rfl, keys_put hk, by rw [hc]; rfl, ?_, by rw [hc]; rfl⟩
                  rw [hc]; simp only [Sp.set]; funext d; rw [show (m.put fd ev).get = setReg m.get fd (some ev) from funext gp]
              · simp [o1, o2, o3] at hc
                simp only [o1, o2, o3, if_false]
                exact ⟨m, rfl, hk, by rw [hc]; rfl, same _ hc⟩
    obtain ⟨m', k1, k2, k3, k4, k5⟩ := key
    have he : epSlot (some (.epoll m)) = .epoll m := rfl
    rw [he, k1]
    refine ⟨release_inv h hh (by rw [hp]; simp) (by intro k hk; cases hk; exact k2), ⟨?_, trivial⟩, ?_⟩
    · simp only [Sp.allows]; exact k3.symm
    · refine r.move (t := t) (p := .idle) rfl ?_ ?_ (by simp)
      · intro d
        simp only [afterAll, Sp.after, k4, upd]
        by_cases e : d = ep
        · simp [e, Obj.abs]
        · simp only [e, if_false]; exact r.fd d
      · intro u _; simp only [afterAll, Sp.after, k5]

theorem remove_ok {s s' : St} {σ : Sp} {t fd : Nat} {l : List Note} (h : Inv s) (r : Rel s σ)
    (hp : s.pc t = .close2 fd) (hs : remove s t fd = some (s', l)) : Good s' σ l := by
  simp only [remove] at hs
  split at hs
  · cases hs
  · rename_i hf
    have hf := free_iff.1 (by simpa using hf)
    cases hs
    have h0 : holds (s.pc t) = none := by rw [hp]; rfl
    refine ⟨?_, ⟨.inl rfl, trivial⟩, ?_⟩
    · refine h.move (t := t) (p := .idle) rfl ?_ ?_ ?_ ?_ ?_ ?_ (by simp)
      · intro d; simp [holds_idle, h0]
      · intro d hx; cases hx
      · intro d hx
        by_cases e : d = fd
        · subst e; exact .inl hf.1
        · exact absurd (upd_ne _ _ e) hx
      · intro d hx; cases hx
      · intro d m hm
        dsimp only at hm
        by_cases e : d = fd
        · subst e; rw [upd_same] at hm; cases hm
        · rw [upd_ne _ _ e] at hm; exact h.keys d m hm
      · intro d u
        by_cases e : u = t
        · subst e
          simp only [if_true, reduceCtorEq, iff_false]
          exact fun hm => by have := (h.rdr u d).2 hm; rw [hp] at this; cases this
        · simp [e]
    · refine r.move (t := t) (p := .idle) rfl ?_ (fun _ _ => rfl) (by simp)
      intro d
      simp only [afterAll, Sp.after, Sp.set, upd]
      by_cases e : d = fd
      · simp [e]
      · simp only [e, if_false]; exact r.fd d

/-- A move inside a call that keeps `ep`. -/
theorem keep_inv {s : St} {t ep : Nat} {o : Option Obj} {p : Pc} (h : Inv s) (hh : holds (s.pc t) = some ep) (hq : holds p = some ep)
    (hu : ∀ fd, s.pc t ≠ .inUse fd false) (pu : ∀ fd, p ≠ .inUse fd false) (pc2 : ∀ fd, p ≠ .close2 fd)
    (hk : ∀ m, o = some (.epoll m) → Keys m) (hwf : Wf o p) :
    Inv { s with slot := upd s.slot ep o, pc := upd s.pc t p } := by
  refine h.move (t := t) (p := p) rfl ?_ ?_ ?_ ?_ ?_ ?_ ?_
  · intro fd
    dsimp only
    rw [hh, hq]
    by_cases e : ep = fd
    · subst e; simp [(h.own t ep).1 hh]
    · simp [e]
  · intro fd hx; rw [hq] at hx; exact .inr (hh.trans hx)
  · intro fd hx
    by_cases e : fd = ep
    · subst e; exact .inr ((h.own t fd).1 hh)
    · exact absurd (upd_ne _ _ e) hx
  · intro fd hx
    rw [hq] at hx; cases hx
    dsimp only; rw [upd_same]; exact hwf
  · intro fd m hm
    dsimp only at hm
    by_cases e : fd = ep
    · subst e; rw [upd_same] at hm; exact hk m hm
    · rw [upd_ne _ _ e] at hm; exact h.keys fd m hm
  · intro fd u
    by_cases e : u = t
    · subst e
      simp only [if_true, pu fd, iff_false]
      exact fun hm => hu fd ((h.rdr u fd).2 hm)
    · simp [e]
  · intro fd hx; exact absurd hx (pc2 fd)

theorem keep_inv' {s : St} {t ep : Nat} {p : Pc} (h : Inv s) (hh : holds (s.pc t) = some ep) (hq : holds p = some ep)
    (hu : ∀ fd, s.pc t ≠ .inUse fd false) (pu : ∀ fd, p ≠ .inUse fd false) (pc2 : ∀ fd, p ≠ .close2 fd) (hwf : Wf (s.slot ep) p) :
    Inv { s with pc := upd s.pc t p } := by
  have := keep_inv (o := s.slot ep) h hh hq hu pu pc2 (fun m hm => h.keys ep m hm) hwf
  rwa [upd_self] at this

theorem scan_ok {s s' : St} {σ : Sp} {t ep : Nat} {max : Int} {todo : Reg} {polls : List PollFd} {l : List Note} (h : Inv s) (r : Rel s σ)
    (hp : s.pc t = .scan ep max todo polls) (hs : scanStep s t ep max todo polls = some (s', l)) : Good s' σ l := by
  have hh : holds (s.pc t) = some ep := by rw [hp]; rfl
  have hu : ∀ fd, s.pc t ≠ .inUse fd false := by rw [hp]; simp
  have hwf := h.wf t ep hh
  rw [hp] at hwf
  obtain ⟨a1, a2, m, hm, a3, a4, a5⟩ := hwf
  unfold scanStep at hs
  cases todo with
  | nil =>
    dsimp only at hs
    cases hs
    refine ⟨keep_inv' h hh rfl hu (by simp) (by simp) ⟨a1, a2, m, hm, by simpa using a4, by simpa using a5, by simp, by simp⟩, trivial,
      same_rel r rfl rfl ?_⟩
    intro _ _ _ _ _ e; cases e; rfl
  | cons q rest =>
    obtain ⟨fd, e⟩ := q
    dsimp only at hs
    split at hs
    · cases hs
    · split at hs
      · rename_i hn
        cases hs
        have hg : m.get fd = some e := a3 (fd, e) (by simp)
        have hnd : fd ∉ polls.map (·.fd.toNat) ∧ fd ∉ rest.map (·.1) := by
          rw [List.nodup_append] at a5
          obtain ⟨-, b1, b2⟩ := a5
          simp only [List.map_cons, List.nodup_cons] at b1
          refine ⟨fun hx => b2 fd hx fd (by simp) rfl, b1.1⟩
        rw [hm]
        dsimp only
        refine ⟨keep_inv h hh rfl hu (by simp) (by simp) (by intro k hk; cases hk; exact keys_filter _ (h.keys ep m hm))
          ⟨a1, a2, _, rfl, ?_, ?_, ?_⟩, ⟨⟨by rw [r.fd fd, hn]; rfl, m.get, by rw [r.fd ep, hm]; rfl, by rw [hg]; rfl⟩, trivial⟩, ?_⟩
        · intro p hpm
          rw [get_del]
          have : ¬ p.1 = fd := fun hx => hnd.2 (hx ▸ List.mem_map.2 ⟨p, hpm, rfl⟩)
          simp only [this, if_false]
          exact a3 p (by simp [hpm])
        · intro x hx
          obtain ⟨c1, e', c2, c3⟩ := a4 x hx
          refine ⟨c1, e', ?_, c3⟩
          rw [get_del]
          have : ¬ x.fd.toNat = fd := fun hy => hnd.1 (hy ▸ List.mem_map.2 ⟨x, hx, rfl⟩)
          simp only [this, if_false]
          exact c2
        · refine a5.sublist ?_
          simp
        · refine r.move (t := t) (p := .scan ep max rest polls) rfl ?_ ?_ (by simp)
          · intro d
            have hep := r.fd ep
            rw [hm] at hep
            simp only [Option.map_some, Obj.abs] at hep
            simp only [afterAll, Sp.after, hep, Sp.set, upd]
            by_cases hd : d = ep
            · simp only [hd, if_true, Option.map_some, Obj.abs]
              congr 2
              funext x; rw [get_del]; simp [setReg]
            · simp only [hd, if_false]; exact r.fd d
          · intro u _
            have hep := r.fd ep
            rw [hm] at hep
            simp only [Option.map_some, Obj.abs] at hep
            simp only [afterAll, Sp.after, hep, Sp.set]
      · cases hs
        have hg : m.get fd = some e := a3 (fd, e) (by simp)
        refine ⟨keep_inv' h hh rfl hu (by simp) (by simp) ⟨a1, a2, m, hm, ?_, ?_, ?_⟩, trivial, same_rel r rfl rfl (by simp)⟩
        · intro p hpm; exact a3 p (by simp [hpm])
        · intro x hx
          rcases List.mem_append.1 hx with hx | hx
          · exact a4 x hx
          · rw [List.mem_singleton.1 hx]
            exact ⟨by simp, e, by simpa using hg, rfl⟩
        · simpa using a5

theorem toPoll_bits (e : BitVec 32) (r : BitVec 16) (h : r &&& toPoll e = r) : ofPoll r &&& e = ofPoll r := by
  have tp : ∀ i o p : Bool, ∀ b : BitVec 16,
      (b = pollIn → ((if i then pollIn else (0 : BitVec 16)) ||| (if o then pollOut else 0) ||| (if p then pollPri else 0)) &&& b ≠ 0 → i = true) ∧
      (b = pollOut → ((if i then pollIn else (0 : BitVec 16)) ||| (if o then pollOut else 0) ||| (if p then pollPri else 0)) &&& b ≠ 0 → o = true) ∧
      (b = pollPri → ((if i then pollIn else (0 : BitVec 16)) ||| (if o then pollOut else 0) ||| (if p then pollPri else 0)) &&& b ≠ 0 → p = true) := by
    intro i o p b
    refine ⟨?_, ?_, ?_⟩ <;> rintro rfl <;> revert i o p <;> decide
  have tpp := tp (decide (e &&& 1 ≠ 0)) (decide (e &&& 4 ≠ 0)) (decide (e &&& 2 ≠ 0))
  simp only [decide_eq_true_eq] at tpp
  have up : ∀ b : BitVec 16, r &&& b ≠ 0 → toPoll e &&& b ≠ 0 := by
    intro b hb hz
    apply hb
    rw [← h, BitVec.and_assoc, hz]; simp
  exact event_bits e r (fun x => (tpp pollIn).1 rfl (up _ x)) (fun x => (tpp pollOut).2.1 rfl (up _ x)) (fun x => (tpp pollPri).2.2 rfl (up _ x))

theorem collect_some {m : Reg} : ∀ {ys : List PollFd} {k : Nat}, (∀ y ∈ ys, ∃ e, m.get y.fd.toNat = some e) → ∃ es, collect m k ys = .ok es := by
  intro ys
  induction ys with
  | nil => intro k _; exact ⟨[], rfl⟩
  | cons y ys ih =>
    intro k h
    obtain ⟨e, he⟩ := h y (by simp)
    have h' : ∀ y ∈ ys, ∃ e, m.get y.fd.toNat = some e := fun z hz => h z (by simp [hz])
    simp only [collect, he]
    split
    · split
      · exact ⟨_, rfl⟩
      · obtain ⟨es, hes⟩ := ih (k := k - 1) h'
        rw [hes]; exact ⟨_, rfl⟩
    · exact ih h'

theorem poll_ok {s s' : St} {σ : Sp} {t ep : Nat} {max : Int} {todo done : List PollFd} {hit : Nat} {found : BitVec 16} {late : Bool}
    {l : List Note} (h : Inv s) (r : Rel s σ) (hp : s.pc t = .poll ep max todo done hit)
    (hs : pollStep s t ep max todo done hit found late = some (s', l)) : Good s' σ l := by
  have hh : holds (s.pc t) = some ep := by rw [hp]; rfl
  have hu : ∀ fd, s.pc t ≠ .inUse fd false := by rw [hp]; simp
  have hwf := h.wf t ep hh
  rw [hp] at hwf
  obtain ⟨a1, a2, m, hm, a3, a4, a5, a6⟩ := hwf
  have hseen := r.seen t ep max todo done hit hp
  unfold pollStep at hs
  cases todo with
  | cons x rest =>
    dsimp only at hs
    have hfx := a3 x (by simp)
    have hnx : x.fd.toNat ∉ done.map (·.fd.toNat) := by
      rw [List.map_append, List.nodup_append] at a4
      exact fun hx => a4.2.2 _ hx x.fd.toNat (by simp) rfl
    -- one look that finds `v`
    have look : ∀ (v : BitVec 16) (hit' : Nat), (v = pollNval ∨ v &&& x.events = v) → (hit' ≠ 0 → hit ≠ 0 ∨ v ≠ 0) → (σ.fd x.fd.toNat = none → ofPoll v = 0) →
        Good { s with pc := upd s.pc t (.poll ep max rest (done ++ [{ x with revents := v }]) hit') } σ [.look t x.fd.toNat v] := by
      intro v hit' hv hh' hc
      refine ⟨keep_inv' h hh rfl hu (by simp) (by simp) ⟨a1, a2, m, hm, ?_, ?_, ?_, ?_⟩, ⟨hc, trivial⟩, ?_⟩
      · intro y hy
        rw [List.mem_append, List.mem_append, List.mem_singleton] at hy
        rcases hy with (hy | rfl) | hy
        · exact a3 y (by simp [hy])
        · exact hfx
        · exact a3 y (by simp [hy])
      · simpa using a4
      · intro y hy
        rcases List.mem_append.1 hy with hy | hy
        · exact a5 y hy
        · rw [List.mem_singleton.1 hy]; exact hv
      · intro hz
        rcases hh' hz with hz | hz
        · obtain ⟨y, hy, hy0⟩ := a6 hz
          exact ⟨y, by simp [hy], hy0⟩
        · exact ⟨_, List.mem_append.2 (.inr (List.mem_singleton.2 rfl)), hz⟩
      · refine r.move (t := t) rfl ?_ ?_ ?_
        · intro d; exact r.fd d
        · intro u hu'; funext d; simp [afterAll, Sp.after, hu']
        · intro _ _ _ dn _ e y hy
          cases e
          rcases List.mem_append.1 hy with hy | hy
          · have hne : ¬ y.fd.toNat = x.fd.toNat := fun hx => hnx (hx ▸ List.mem_map.2 ⟨y, hy, rfl⟩)
            simp only [afterAll, Sp.after, hne, and_false, if_false]
            exact hseen y hy
          · rw [List.mem_singleton.1 hy]; simp [afterAll, Sp.after]
    split at hs
    · cases hs
      exact look 0 hit (.inr (by simp)) .inl (fun _ => by decide)
    · split at hs
      · cases hs
      · split at hs
        · cases hs
          exact look pollNval _ (.inl rfl) (fun _ => .inr (by decide)) (fun _ => by decide)
        · rename_i o ho
          cases hs
          refine look _ _ (.inr ?_) ?_ ?_
          · rw [BitVec.and_assoc, BitVec.and_self]
          · split
            · exact .inl
            · rename_i hz; exact fun _ => .inr hz
          · intro hn; rw [r.fd, ho] at hn; cases hn
  | nil =>
    dsimp only at hs
    split at hs
    · rw [hm] at hs
      dsimp only at hs
      obtain ⟨es, hes⟩ := collect_some (m := m) (ys := done) (k := max.toNat)
        (by intro y hy; obtain ⟨-, e, he, -⟩ := a3 y (by simp [hy]); exact ⟨e, he⟩)
      rw [hes] at hs
      cases hs
      obtain ⟨c1, c2, c3, -⟩ := collect_ok (by omega) hes
      refine ⟨release_inv' h hh hu, ⟨⟨rfl, by omega, ?_, m.get, by rw [r.fd ep, hm]; rfl, ?_⟩, trivial⟩, same_rel r rfl rfl (by simp)⟩
      · simp only [List.append_nil] at a4
        exact a4.sublist c3
      · intro p hpm
        obtain ⟨y, hy, g, g1, g2, g3, g4, g5⟩ := c2 p hpm
        obtain ⟨-, e, he, hev⟩ := a3 y (by simp [hy])
        have : g = e := by rw [g2, he] at g1; exact (Option.some.inj g1).symm
        subst this
        refine ⟨g, g1, g3, g5, ?_, ?_⟩
        · rw [g4, g2, hseen y hy]; rfl
        · rw [g4]
          rcases a5 y hy with hz | hz
          · rw [g4, hz] at g5; exact absurd (by decide) g5
          · exact toPoll_bits _ _ (by rw [← hev]; exact hz)
    · cases hs
      refine ⟨keep_inv' h hh rfl hu (by simp) (by simp) ⟨a1, a2, m, hm, by simpa using a3, by simpa using a4, by simp, by simp⟩, trivial,
        same_rel r rfl rfl ?_⟩
      intro _ _ _ _ _ e; cases e; rfl

theorem step_ok {s s' : St} {σ : Sp} {a : Act} {l : List Note} (h : Inv s) (r : Rel s σ) (hs : step s a = some (s', l)) : Good s' σ l := by
  cases a with
  | begin t c => exact begin_ok h r hs
  | go t found late =>
    simp only [step] at hs
    split at hs
    · cases hs
    · exact first_ok h r (by assumption) hs
    · exact second_ok h r (by assumption) hs
    · exact remove_ok h r (by assumption) hs
    · exact scan_ok h r (by assumption) hs
    · exact poll_ok h r (by assumption) hs
    · rename_i fd hp
      cases hs
      exact ⟨release_inv' h (by rw [hp]; rfl) (by rw [hp]; simp), ⟨trivial, trivial⟩, same_rel r rfl rfl (by simp)⟩
    · rename_i fd hp
      cases hs
      refine ⟨?_, ⟨trivial, trivial⟩, same_rel r rfl rfl (by simp)⟩
      refine h.move (t := t) (p := .idle) rfl ?_ ?_ ?_ ?_ h.keys ?_ (by simp)
      · intro d; rw [hp]; rfl
      · intro d hx; cases hx
      · intro d hx; exact absurd rfl hx
      · intro d hx; cases hx
      · intro d u
        dsimp only
        by_cases e : d = fd
        · subst e
          rw [upd_same]
          by_cases eu : u = t
          · subst eu; simp
          · simp [eu]
        · rw [upd_ne _ _ e]
          by_cases eu : u = t
          · subst eu
            simp only [if_true, reduceCtorEq, iff_false]
            intro hm
            have := (h.rdr u d).2 hm
            rw [hp] at this; cases this; exact e rfl
          · simp [eu]
  | intr t =>
    simp only [step] at hs
    split at hs
    · rename_i hp
      cases hs
      exact ⟨release_inv' h (by rw [hp]; rfl) (by rw [hp]; simp), ⟨.inl rfl, trivial⟩, same_rel r rfl rfl (by simp)⟩
    · cases hs

theorem Allowed.append {σ : Sp} {a b : List Note} (h : Allowed σ a) (h' : Allowed (afterAll σ a) b) : Allowed σ (a ++ b) := by
  induction a generalizing σ with
  | nil => exact h'
  | cons n a ih => exact ⟨h.1, ih h.2 h'⟩

theorem afterAll_append (σ : Sp) (a b : List Note) : afterAll σ (a ++ b) = afterAll (afterAll σ a) b := by
  induction a generalizing σ with
  | nil => rfl
  | cons n a ih => exact ih _

theorem runFrom_ok {s : St} {σ : Sp} (h : Inv s) (r : Rel s σ) (as : List Act) : Good (runFrom s as).1 σ (runFrom s as).2 := by
  induction as generalizing s σ with
  | nil => exact ⟨h, trivial, r⟩
  | cons a as ih =>
    simp only [runFrom]
    split
    · exact ih h r
    · rename_i s1 l hs
      obtain ⟨g1, g2, g3⟩ := step_ok h r hs
      obtain ⟨k1, k2, k3⟩ := ih g1 g3
      refine ⟨k1, g2.append k2, ?_⟩
      rw [afterAll_append]; exact k3

theorem run_ok (as : List Act) : Good (run as).1 .init (run as).2 := runFrom_ok .init .init as

end Verif.EpollConc
