import Verif.InetSock

/-!
# Internet sockets: the invariant
-/

namespace Verif.InetSock

open Verif.Ports (Addr PType Net)

/-! ## Histories -/

/-- The sockets together with what an observer has noted: `given i` is what the host has handed over on its socket `i`,
`taken h` what the `recv` calls without MSG_PEEK on socket `h` have returned. -/
structure Sys where
  s : State
  given : Nat → List UInt8
  taken : Nat → List UInt8

def Sys.init : Sys := { s := InetSock.init, given := fun _ => [], taken := fun _ => [] }

/-- The socket of a descriptor. -/
def sockOf (s : State) (fd : Nat) : Option Nat := (s.tab fd).map (·.h)

/-- What the observer notes of a call. -/
def noteGiven (g : Nat → List UInt8) (o : Out) : Nat → List UInt8 :=
  match o.got with
  | some (i, bs) => upd g i (g i ++ bs)
  | none => g

def noteTaken (t : Nat → List UInt8) (s : State) (op : Op) (o : Out) : Nat → List UInt8 :=
  match op with
  | .recv fd _ false _ _ _ _ =>
    match sockOf s fd with
    | some h => upd t h (t h ++ o.bytes)
    | none => t
  | _ => t

def Sys.step (e : Env) (S : Sys) (op : Op) : Sys :=
  { s := (InetSock.step e S.s op).1
    given := noteGiven S.given (InetSock.step e S.s op).2
    taken := noteTaken S.taken S.s op (InetSock.step e S.s op).2 }

/-- Every state reached by a history of calls and host answers. -/
inductive Reach (e : Env) : Sys → Prop
  | init : Reach e .init
  | step {S : Sys} (h : Reach e S) (op : Op) : Reach e (S.step e op)

/-! ## The invariant -/

structure Good (k : Sock) (nhost : Nat) : Prop where
  laddr : k.laddr ≠ none → k.inner ≠ none
  conn : k.st = .connected ∨ k.st = .listen ∨ k.st = .inProgress → k.ty.tcp = true ∧ k.inner ≠ none
  peek : k.peek ≠ [] → k.inner ≠ none
  lt : ∀ i, k.inner = some i → i < nhost

structure Inv (e : Env) (S : Sys) : Prop where
  tab : ∀ fd d, S.s.tab fd = some d → fd < e.nfd ∧ S.s.socks d.h ≠ none
  live : ∀ h k, S.s.socks h = some k → ∃ fd d, S.s.tab fd = some d ∧ d.h = h
  hlt : ∀ h k, S.s.socks h = some k → h < S.s.ns
  good : ∀ h k, S.s.socks h = some k → Good k S.s.nhost
  inj : ∀ h k h' k' i, S.s.socks h = some k → S.s.socks h' = some k' → k.inner = some i → k'.inner = some i → h = h'
  stream : ∀ h k i, S.s.socks h = some k → k.ty.tcp = true → k.inner = some i → S.taken h ++ k.peek = S.given i
  fresh : ∀ i, S.s.nhost ≤ i → S.given i = []
  untaken : ∀ h, S.s.ns ≤ h → S.taken h = []
  unheard : ∀ h k, S.s.socks h = some k → k.inner = none → S.taken h = []

/-- The socket got a host socket, or kept what it had. -/
def Link (s s' : State) (k k' : Sock) : Prop :=
  (k'.inner = k.inner ∧ s'.nhost = s.nhost) ∨ (k.inner = none ∧ k'.inner = some s.nhost ∧ s'.nhost = s.nhost + 1)

/-- Nothing changed but the port table and the number of host sockets. -/
structure Same (s s' : State) : Prop where
  tab : s'.tab = s.tab
  socks : s'.socks = s.socks
  ns : s'.ns = s.ns
  pend : s'.pend = s.pend

theorem Same.refl (s : State) : Same s s := ⟨rfl, rfl, rfl, rfl⟩

theorem Same.trans {s s' s'' : State} (a : Same s s') (b : Same s' s'') : Same s s'' :=
  ⟨b.1.trans a.1, b.2.trans a.2, b.3.trans a.3, b.4.trans a.4⟩

/-- What the helpers do to a socket besides its host socket: nothing but the local address. -/
structure Kept (k k' : Sock) : Prop where
  ty : k'.ty = k.ty
  st : k'.st = k.st
  peek : k'.peek = k.peek
  raddr : k'.raddr = k.raddr
  reuse : k'.reuse = k.reuse

theorem Kept.refl (k : Sock) : Kept k k := ⟨rfl, rfl, rfl, rfl, rfl⟩

theorem Kept.trans {a b c : Sock} (x : Kept a b) (y : Kept b c) : Kept a c :=
  ⟨y.1.trans x.1, y.2.trans x.2, y.3.trans x.3, y.4.trans x.4, y.5.trans x.5⟩

/-- A helper's result. -/
structure Helped (s : State) (k : Sock) (s' : State) (k' : Sock) : Prop where
  same : Same s s'
  link : Link s s' k k'
  kept : Kept k k'
  laddr : (k.laddr ≠ none → k.inner ≠ none) → k'.laddr ≠ none → k'.inner ≠ none

theorem Link.trans {a b c : State} {x y z : Sock} (h1 : Link a b x y) (h2 : Link b c y z) : Link a c x z := by
  unfold Link at *
  grind

theorem Helped.trans {a b c : State} {x y z : Sock} (h1 : Helped a x b y) (h2 : Helped b y c z) : Helped a x c z :=
  ⟨h1.1.trans h2.1, h1.2.trans h2.2, h1.3.trans h2.3, fun h => h2.4 (h1.4 h)⟩

theorem Helped.refl (s : State) (k : Sock) : Helped s k s k :=
  ⟨.refl s, .inl ⟨rfl, rfl⟩, .refl k, fun h => h⟩

theorem Helped.good {s s' : State} {k k' : Sock} (h : Helped s k s' k') (g : Good k s.nhost) : Good k' s'.nhost := by
  obtain ⟨hs, hl, hk, ha⟩ := h
  obtain ⟨g1, g2, g3, g4⟩ := g
  obtain ⟨t1, t2, t3, t4, t5⟩ := hk
  refine ⟨ha g1, ?_, ?_, ?_⟩
  · rw [t1, t2]; intro h; rcases hl with ⟨e, _⟩ | ⟨_, e, _⟩ <;> simp_all
  · rw [t3]; intro h; rcases hl with ⟨e, _⟩ | ⟨_, e, _⟩ <;> simp_all
  · intro i hi
    rcases hl with ⟨e, e2⟩ | ⟨_, e, e2⟩
    · rw [e2]; exact g4 i (e ▸ hi)
    · rw [e] at hi; cases hi; omega

theorem force_helped (s : State) (k : Sock) : Helped s k (force s k).1 (force s k).2 := by
  unfold force
  split
  · exact .refl s k
  · rename_i h
    exact ⟨⟨rfl, rfl, rfl, rfl⟩, .inr ⟨h, rfl, rfl⟩, ⟨rfl, rfl, rfl, rfl, rfl⟩, fun _ _ => by simp⟩

theorem force_inner (s : State) (k : Sock) : (force s k).2.inner ≠ none := by
  unfold force
  split
  · rename_i h; simp [h]
  · simp

theorem force_laddr (s : State) (k : Sock) : (force s k).2.laddr = k.laddr := by
  unfold force
  split <;> rfl

theorem Helped.net {s : State} {k : Sock} {s' : State} {k' : Sock} (h : Helped s k s' k') (n : Net) :
    Helped s k { s' with net := n } k' :=
  ⟨⟨h.1.1, h.1.2, h.1.3, h.1.4⟩, h.2, h.3, h.4⟩

theorem Helped.setLaddr {s : State} {k : Sock} {s' : State} {k' : Sock} (h : Helped s k s' k') (hi : k'.inner ≠ none) (a : Option SA) :
    Helped s k s' { k' with laddr := a } :=
  ⟨h.1, h.2, ⟨h.3.1, h.3.2, h.3.3, h.3.4, h.3.5⟩, fun _ _ => hi⟩

theorem bindInner_helped (e : Env) (s : State) (k : Sock) (to : SA) (pre : Bool) (hb : Option Errno) :
    Helped s k (bindInner e s k to pre hb).1 (bindInner e s k to pre hb).2.1 := by
  unfold bindInner
  split
  · exact .refl s k
  · split
    · exact .refl s k
    · dsimp only
      split
      · exact (force_helped s k).setLaddr (force_inner s k) _
      · split
        · exact ((force_helped s k).setLaddr (force_inner s k) _).net _
        · exact ((force_helped s k).setLaddr (force_inner s k) _).net _

theorem bindInner_ok {e : Env} {s : State} {k : Sock} {to : SA} {pre : Bool} {hb : Option Errno} {v : Int}
    (h : (bindInner e s k to pre hb).2.2 = .ok v) :
    (bindInner e s k to pre hb).2.1.laddr ≠ none ∧ (bindInner e s k to pre hb).2.1.inner ≠ none := by
  have hi := force_inner s k
  unfold bindInner at *
  split at h
  · simp at h
  · split at h
    · simp at h
    · dsimp only at *
      split at h
      · simp_all
      · split at h <;> simp_all

theorem assignAddr_same {e : Env} {s s' : State} {k : Sock} {v6 : Bool} {x : Errno ⊕ SA}
    (h : assignAddr e s k v6 = .inl (s', x)) : Same s s' ∧ s'.nhost = s.nhost := by
  unfold assignAddr at h
  split at h
  · cases h; exact ⟨.refl _, rfl⟩
  · split at h <;> cases h <;> exact ⟨⟨rfl, rfl, rfl, rfl⟩, rfl⟩

theorem Helped.after {s s' : State} {k : Sock} (h : Same s s' ∧ s'.nhost = s.nhost) : Helped s k s' k :=
  ⟨h.1, .inl ⟨rfl, h.2⟩, .refl k, fun h => h⟩

theorem implicitBind_helped (e : Env) (s : State) (k : Sock) (v6 : Bool) (hb : Option Errno) :
    Helped s k (implicitBind e s k v6 hb).1 (implicitBind e s k v6 hb).2.1 := by
  unfold implicitBind
  split
  · exact .refl s k
  · split
    · exact .refl s k
    · rename_i h; exact .after (assignAddr_same h)
    · rename_i a h
      dsimp only
      have := (Helped.after (k := k) (assignAddr_same h)).trans (bindInner_helped e _ k a true hb)
      split <;> exact this

theorem implicitBind_ok {e : Env} {s : State} {k : Sock} {v6 : Bool} {hb : Option Errno} (hk : k.laddr ≠ none → k.inner ≠ none)
    (h : (implicitBind e s k v6 hb).2.2 = none) :
    (implicitBind e s k v6 hb).2.1.laddr ≠ none ∧ (implicitBind e s k v6 hb).2.1.inner ≠ none := by
  unfold implicitBind at *
  split at h
  · rename_i a hl
    exact ⟨by simp [hl], hk (by simp [hl])⟩
  · split at h
    · simp at h
    · simp at h
    · dsimp only at *
      split at h
      · rename_i hb'
        exact bindInner_ok hb'
      · simp at h

theorem withSock_cases (e : Env) (s : State) (fd : Nat) (f : Desc → Sock → State × Out) :
    (∃ r, withSock e s fd f = (s, .r r)) ∨
      ∃ d k, fd < e.nfd ∧ s.tab fd = some d ∧ s.socks d.h = some k ∧ withSock e s fd f = f d k := by
  unfold withSock
  split
  · cases ht : s.tab fd with
    | none => exact .inl ⟨_, rfl⟩
    | some d =>
      dsimp only
      cases hs : s.socks d.h with
      | none => exact .inl ⟨_, rfl⟩
      | some k => exact .inr ⟨d, k, by assumption, rfl, hs, rfl⟩
  · exact .inl ⟨_, rfl⟩

theorem withSock_elim {e : Env} {s : State} {fd : Nat} {f : Desc → Sock → State × Out} (P : State × Out → Prop)
    (hbad : ∀ r, P (s, .r r)) (hok : ∀ d k, fd < e.nfd → s.tab fd = some d → s.socks d.h = some k → P (f d k)) :
    P (withSock e s fd f) := by
  rcases withSock_cases e s fd f with ⟨r, h⟩ | ⟨d, k, h1, h2, h3, h⟩
  · rw [h]; exact hbad r
  · rw [h]; exact hok d k h1 h2 h3

theorem lowest_some {e : Env} {s : State} {fd : Nat} (h : lowest e s = some fd) :
    fd < e.nfd ∧ s.tab fd = none ∧ ∀ i < fd, s.tab i ≠ none := by
  unfold lowest at h
  rw [List.find?_range_eq_some] at h
  obtain ⟨h1, h2, h3⟩ := h
  refine ⟨by simpa using h2, by simpa using h1, fun i hi => ?_⟩
  have := h3 i hi
  intro hn
  simp [hn] at this

theorem lowest_none {e : Env} {s : State} (h : lowest e s = none) : ∀ i < e.nfd, s.tab i ≠ none := by
  unfold lowest at h
  simp only [List.find?_eq_none, List.mem_range] at h
  intro i hi hn
  exact h i hi (by simp [hn])

/-! ## Preservation -/

/-- One socket changed. -/
theorem Inv.change {e : Env} {S : Sys} (hi : Inv e S) {h : Nat} {k k' : Sock} {s' : State} {g t : Nat → List UInt8}
    (hk : S.s.socks h = some k) (htab : s'.tab = S.s.tab) (hns : s'.ns = S.s.ns) (hso : s'.socks = upd S.s.socks h (some k'))
    (hl : Link S.s s' k k') (hgood : Good k' s'.nhost) (hg : ∀ i, k'.inner ≠ some i → g i = S.given i)
    (ht : ∀ x, x ≠ h → t x = S.taken x) (hst : k'.ty.tcp = true → ∀ i, k'.inner = some i → t h ++ k'.peek = g i)
    (hn : k'.inner = none → t h = []) : Inv e { s := s', given := g, taken := t } := by
  have hnh : S.s.nhost ≤ s'.nhost := by rcases hl with ⟨_, h⟩ | ⟨_, _, h⟩ <;> omega
  have other : ∀ h' k'' i, h' ≠ h → S.s.socks h' = some k'' → k''.inner = some i → k'.inner ≠ some i := by
    intro h' k'' i hne h1 h2 h3
    rcases hl with ⟨h4, _⟩ | ⟨_, h4, _⟩
    · exact hne (hi.inj h' k'' h k i h1 hk h2 (h4 ▸ h3))
    · rw [h4] at h3
      have := (hi.good h' k'' h1).lt i h2
      cases h3; omega
  constructor
  · intro fd d h1
    rw [show ({ s := s', given := g, taken := t } : Sys).s.tab = _ from htab] at h1
    obtain ⟨h2, h3⟩ := hi.tab fd d h1
    refine ⟨h2, ?_⟩
    simp only [hso, upd_apply]
    split <;> simp_all
  · intro h' k'' h1
    simp only [hso, upd_apply, htab] at h1 ⊢
    split at h1
    · rename_i he; subst he; exact hi.live _ _ hk
    · exact hi.live _ _ h1
  · intro h' k'' h1
    simp only [hso, upd_apply, hns] at h1 ⊢
    split at h1
    · rename_i he; subst he; exact hi.hlt _ _ hk
    · exact hi.hlt _ _ h1
  · intro h' k'' h1
    simp only [hso, upd_apply] at h1 ⊢
    split at h1
    · cases h1; exact hgood
    · obtain ⟨a, b, c, d⟩ := hi.good _ _ h1
      exact ⟨a, b, c, fun i hi => Nat.lt_of_lt_of_le (d i hi) hnh⟩
  · intro a ka b kb i h1 h2 h3 h4
    simp only [hso, upd_apply] at h1 h2
    split at h1 <;> split at h2
    · simp_all
    · cases h1; exact absurd h3 (other b kb i (by assumption) h2 h4)
    · cases h2; exact absurd h4 (other a ka i (by assumption) h1 h3)
    · exact hi.inj a ka b kb i h1 h2 h3 h4
  · intro h' k'' i h1 h2 h3
    simp only [hso, upd_apply] at h1 ⊢
    split at h1
    · rename_i he; subst he; cases h1; exact hst h2 i h3
    · rename_i he
      rw [ht h' he, hg i (other h' k'' i he h1 h3)]
      exact hi.stream h' k'' i h1 h2 h3
  · intro i h1
    dsimp only at h1 ⊢
    rw [hg i (fun h2 => by have := hgood.lt i h2; omega)]
    exact hi.fresh i (by omega)
  · intro h' h1
    dsimp only at h1 ⊢
    rw [hns] at h1
    rw [ht h' (fun he => by subst he; have := hi.hlt _ _ hk; omega)]
    exact hi.untaken h' h1
  · intro h' k'' h1 h2
    simp only [hso, upd_apply] at h1 ⊢
    split at h1
    · rename_i he; subst he; cases h1; exact hn h2
    · rename_i he; rw [ht h' he]; exact hi.unheard h' k'' h1 h2

/-- One socket changed, nothing was received. -/
theorem Inv.change' {e : Env} {S : Sys} (hi : Inv e S) {h : Nat} {k k' : Sock} {s' : State}
    (hk : S.s.socks h = some k) (htab : s'.tab = S.s.tab) (hns : s'.ns = S.s.ns) (hso : s'.socks = upd S.s.socks h (some k'))
    (hl : Link S.s s' k k') (hgood : Good k' s'.nhost) (hty : k'.ty = k.ty) (hp : k'.peek = k.peek) :
    Inv e { s := s', given := S.given, taken := S.taken } := by
  refine hi.change hk htab hns hso hl hgood (fun _ _ => rfl) (fun _ _ => rfl) ?_ ?_
  · intro h1 i h2
    rw [hp]
    rcases hl with ⟨h3, _⟩ | ⟨h3, h4, _⟩
    · exact hi.stream h k i hk (hty ▸ h1) (h3 ▸ h2)
    · rw [h4] at h2; cases h2
      rw [hi.unheard h k hk h3, hi.fresh _ (Nat.le_refl _)]
      have := (hi.good h k hk).peek
      simp only [List.nil_append]
      exact Decidable.byContradiction fun hc => this hc h3
  · intro h1
    rcases hl with ⟨h3, _⟩ | ⟨h3, h4, _⟩
    · exact hi.unheard h k hk (h3 ▸ h1)
    · simp [h4] at h1

/-- The same, through a helper and a change of the connection state and the peer's address. -/
theorem Inv.helped {e : Env} {S : Sys} (hi : Inv e S) {h : Nat} {k k1 k' : Sock} {s1 : State}
    (hk : S.s.socks h = some k) (hh : Helped S.s k s1 k1) (hty : k'.ty = k1.ty) (hin : k'.inner = k1.inner)
    (hp : k'.peek = k1.peek) (hla : k'.laddr = k1.laddr)
    (hst : k'.st = k1.st ∨ ((k'.st = .connected ∨ k'.st = .listen ∨ k'.st = .inProgress) → k1.ty.tcp = true ∧ k1.inner ≠ none)) :
    Inv e { s := s1.setS h k', given := S.given, taken := S.taken } := by
  have g := hh.good (hi.good h k hk)
  refine hi.change' hk ?_ ?_ ?_ ?_ ?_ (hty.trans hh.kept.ty) (hp.trans hh.kept.peek)
  · exact hh.same.tab
  · exact hh.same.ns
  · simp [State.setS, hh.same.socks]
  · have := hh.link
    unfold Link State.setS at *
    simpa [hin] using this
  · obtain ⟨g1, g2, g3, g4⟩ := g
    refine ⟨by rw [hla, hin]; exact g1, ?_, by rw [hp, hin]; exact g3, by rw [hin]; exact g4⟩
    rw [hty, hin]
    rcases hst with h1 | h1
    · rw [h1]; exact g2
    · exact h1

/-- Only the port table and the list of listening addresses changed. -/
theorem Inv.same {e : Env} {S : Sys} (hi : Inv e S) {s' : State} (h1 : s'.tab = S.s.tab) (h2 : s'.socks = S.s.socks)
    (h3 : s'.ns = S.s.ns) (h4 : S.s.nhost ≤ s'.nhost) : Inv e { s := s', given := S.given, taken := S.taken } := by
  obtain ⟨a, b, c, d, f, g, i, j, k⟩ := hi
  constructor <;> simp only [h1, h2, h3]
  · exact a
  · exact b
  · exact c
  · intro h k hk
    obtain ⟨x, y, z, w⟩ := d h k hk
    exact ⟨x, y, z, fun i hi => Nat.lt_of_lt_of_le (w i hi) h4⟩
  · exact f
  · exact g
  · exact fun x hx => i x (Nat.le_trans h4 hx)
  · exact j
  · exact k

/-- A new socket behind a free descriptor. -/
theorem Inv.add {e : Env} {S : Sys} (hi : Inv e S) {fd : Nat} {d : Desc} {k : Sock} {s' : State} (hfd : fd < e.nfd)
    (hfree : S.s.tab fd = none) (hd : d.h = S.s.ns) (htab : s'.tab = upd S.s.tab fd (some d))
    (hso : s'.socks = upd S.s.socks S.s.ns (some k)) (hns : s'.ns = S.s.ns + 1) (hnh : S.s.nhost ≤ s'.nhost)
    (hgood : Good k s'.nhost) (hin : ∀ i, k.inner = some i → S.s.nhost ≤ i) (hp : k.peek = []) :
    Inv e { s := s', given := S.given, taken := S.taken } := by
  have hnone : S.s.socks S.s.ns = none := by
    cases h : S.s.socks S.s.ns with
    | none => rfl
    | some k => have := hi.hlt _ _ h; omega
  constructor
  · intro fd' d' h1
    simp only [htab, hso, upd_apply] at h1 ⊢
    split at h1
    · rename_i he; subst he; cases h1; simp [hd, hfd]
    · obtain ⟨h2, h3⟩ := hi.tab fd' d' h1
      refine ⟨h2, ?_⟩
      split
      · simp
      · exact h3
  · intro h k' h1
    simp only [htab, hso, upd_apply] at h1 ⊢
    split at h1
    · rename_i he; exact ⟨fd, d, by simp, by rw [hd, he]⟩
    · obtain ⟨fd', d', h2, h3⟩ := hi.live h k' h1
      refine ⟨fd', d', ?_, h3⟩
      split
      · simp_all
      · exact h2
  · intro h k' h1
    simp only [hso, upd_apply, hns] at h1 ⊢
    split at h1
    · omega
    · have := hi.hlt _ _ h1; omega
  · intro h k' h1
    simp only [hso, upd_apply] at h1 ⊢
    split at h1
    · cases h1; exact hgood
    · obtain ⟨a, b, c, d⟩ := hi.good _ _ h1
      exact ⟨a, b, c, fun i hi => Nat.lt_of_lt_of_le (d i hi) hnh⟩
  · intro a ka b kb i h1 h2 h3 h4
    simp only [hso, upd_apply] at h1 h2
    split at h1 <;> split at h2
    · simp_all
    · cases h1; have := hin i h3; have := (hi.good _ _ h2).lt i h4; omega
    · cases h2; have := hin i h4; have := (hi.good _ _ h1).lt i h3; omega
    · exact hi.inj a ka b kb i h1 h2 h3 h4
  · intro h k' i h1 h2 h3
    simp only [hso, upd_apply] at h1 ⊢
    split at h1
    · rename_i he; subst he; cases h1
      rw [hi.untaken _ (Nat.le_refl _), hp, hi.fresh i (hin i h3)]; rfl
    · exact hi.stream h k' i h1 h2 h3
  · exact fun i h1 => hi.fresh i (Nat.le_trans hnh h1)
  · exact fun h h1 => hi.untaken h (by simp only [hns] at h1; omega)
  · intro h k' h1 h2
    simp only [hso, upd_apply] at h1 ⊢
    split at h1
    · rename_i he; subst he; exact hi.untaken _ (Nat.le_refl _)
    · exact hi.unheard h k' h1 h2

/-- A descriptor more for a socket. -/
theorem Inv.share {e : Env} {S : Sys} (hi : Inv e S) {fd fd' : Nat} {d d' : Desc} (hfd : S.s.tab fd = some d) (hd : d'.h = d.h)
    (hlt : fd' < e.nfd) (hfree : S.s.tab fd' = none) :
    Inv e { s := { S.s with tab := upd S.s.tab fd' (some d') }, given := S.given, taken := S.taken } := by
  obtain ⟨a, b, c, dd, f, g, i, j, k⟩ := hi
  refine ⟨?_, ?_, c, dd, f, g, i, j, k⟩
  · intro x dx h1
    simp only [upd_apply] at h1 ⊢
    split at h1
    · rename_i he; subst he; cases h1
      exact ⟨hlt, hd ▸ (a _ _ hfd).2⟩
    · exact a x dx h1
  · intro h k' h1
    obtain ⟨x, dx, h2, h3⟩ := b h k' h1
    refine ⟨x, dx, ?_, h3⟩
    simp only [upd_apply]
    split
    · simp_all
    · exact h2

/-- Whether some descriptor leads to the socket. -/
theorem refd_iff {e : Env} {s : State} {h : Nat} (ht : ∀ fd d, s.tab fd = some d → fd < e.nfd) :
    refd e s h = true ↔ ∃ fd d, s.tab fd = some d ∧ d.h = h := by
  simp only [refd, List.any_eq_true, List.mem_range]
  constructor
  · rintro ⟨i, _, hi⟩
    cases hd : s.tab i with
    | none => simp [hd] at hi
    | some d => exact ⟨i, d, hd, by simpa [hd] using hi⟩
  · rintro ⟨fd, d, h1, h2⟩
    exact ⟨fd, ht fd d h1, by simp [h1, h2]⟩

theorem giveBack_same (e : Env) (s : State) (k : Sock) :
    Same s (giveBack e s k).1 ∧ (giveBack e s k).1.nhost = s.nhost ∧
      (giveBack e s k).2.1 = { k with laddr := none } := by
  unfold giveBack
  split
  · rename_i h
    exact ⟨.refl s, rfl, by cases k; simp_all⟩
  · split <;> exact ⟨⟨rfl, rfl, rfl, rfl⟩, rfl, rfl⟩

/-- A descriptor less. -/
theorem Inv.drop {e : Env} {S : Sys} (hi : Inv e S) {fd : Nat} {d : Desc} (hfd : S.s.tab fd = some d) (r : Ret) :
    Inv e { s := (dropIfLast e { S.s with tab := upd S.s.tab fd none } d.h r).1, given := S.given, taken := S.taken } := by
  have ht : ∀ x dx, (upd S.s.tab fd none) x = some dx → x < e.nfd := by
    intro x dx h
    simp only [upd_apply] at h
    split at h
    · simp at h
    · exact (hi.tab x dx h).1
  have hiff := refd_iff (e := e) (s := { S.s with tab := upd S.s.tab fd none }) (h := d.h) ht
  unfold dropIfLast
  split
  · rename_i hany
    obtain ⟨x, dx, h1, h2⟩ := hiff.1 hany
    obtain ⟨a, b, c, dd, f, g, i, j, k⟩ := hi
    refine ⟨?_, ?_, c, dd, f, g, i, j, k⟩
    · intro y dy hy
      simp only [upd_apply] at hy
      split at hy
      · simp at hy
      · exact a y dy hy
    · intro h k' hk
      obtain ⟨y, dy, h3, h4⟩ := b h k' hk
      by_cases hy : y = fd
      · subst hy; rw [hfd] at h3; cases h3
        exact ⟨x, dx, h1, h2.trans h4⟩
      · exact ⟨y, dy, by simp [hy, h3], h4⟩
  · rename_i hany
    rw [hiff] at hany
    have gone : ∀ s' : State, s'.tab = upd S.s.tab fd none → s'.socks = upd S.s.socks d.h none → s'.ns = S.s.ns →
        s'.nhost = S.s.nhost → Inv e { s := s', given := S.given, taken := S.taken } := by
      intro s' e1 e2 e3 e4
      obtain ⟨a, b, c, dd, f, g, i, j, k⟩ := hi
      constructor <;> simp only [e1, e2, e3, e4]
      · intro y dy hy
        refine ⟨ht y dy hy, ?_⟩
        have hne : dy.h ≠ d.h := fun he => hany ⟨y, dy, hy, he⟩
        rw [upd_ne _ _ hne]
        simp only [upd_apply] at hy
        split at hy
        · simp at hy
        · exact (a y dy hy).2
      · intro h k' hk
        simp only [upd_apply] at hk
        split at hk
        · simp at hk
        · obtain ⟨y, dy, h3, h4⟩ := b h k' hk
          refine ⟨y, dy, ?_, h4⟩
          rw [upd_ne]
          · exact h3
          · rintro rfl; rw [hfd] at h3; cases h3; simp_all
      all_goals
        try simp only [upd_apply]
      · intro h k' hk; split at hk <;> first | simp at hk | exact c h k' hk
      · intro h k' hk; split at hk <;> first | simp at hk | exact dd h k' hk
      · intro h k' h2 k2 x hk hk2; split at hk <;> split at hk2 <;> first | (simp at hk; done) | (simp at hk2; done) | exact f h k' h2 k2 x hk hk2
      · intro h k' x hk; split at hk <;> first | (simp at hk; done) | exact g h k' x hk
      · exact i
      · exact j
      · intro h k' hk; split at hk <;> first | (simp at hk; done) | exact k h k' hk
    have hs := (hi.tab fd d hfd).2
    cases hk : S.s.socks d.h with
    | none => exact absurd hk hs
    | some k =>
      dsimp only
      split
      · exact gone _ rfl rfl rfl rfl
      · obtain ⟨⟨h1, h2, h3, _⟩, h4, _⟩ := giveBack_same e { S.s with tab := upd S.s.tab fd none } k
        exact gone _ h1 (by simp [h2]) h3 h4

theorem dropIfLast_got (e : Env) (s : State) (h : Nat) (r : Ret) : (dropIfLast e s h r).2.got = none := by
  unfold dropIfLast
  repeat' split
  all_goals rfl

theorem Inv.init (e : Env) : Inv e .init := by
  constructor <;> simp [Sys.init, InetSock.init]

/-- A receiving call on a TCP socket. -/
theorem recvTcp_inv {e : Env} {S : Sys} (hi : Inv e S) {d : Desc} {k0 k : Sock}
    (hk0 : S.s.socks d.h = some k0) (hty : k.ty = k0.ty) (hin : k.inner = k0.inner) (hpk : k.peek = k0.peek)
    (htcp : k.ty.tcp = true) (hg : Good k S.s.nhost) (n : Nat) (peek : Bool) (hr : HRecv) :
    Inv e { s := (recvTcp S.s d k n peek hr).1
            given := noteGiven S.given (recvTcp S.s d k n peek hr).2
            taken := if peek then S.taken else upd S.taken d.h (S.taken d.h ++ (recvTcp S.s d k n peek hr).2.bytes) } := by
  have hstr : ∀ i, k.inner = some i → S.taken d.h ++ k.peek = S.given i := by
    intro i h; rw [hpk]; exact hi.stream _ _ i hk0 (hty ▸ htcp) (hin ▸ h)
  have hun : k.inner = none → S.taken d.h = [] := fun h => hi.unheard _ _ hk0 (hin ▸ h)
  have hcut : k.peek.take n ++ k.peek.drop n = k.peek := List.take_append_drop n k.peek
  have base : ∀ (g : Nat → List UInt8) (t : Nat → List UInt8) (p : List UInt8), (p ≠ [] → k.inner ≠ none) →
      (∀ i, k.inner ≠ some i → g i = S.given i) →
      (∀ x, x ≠ d.h → t x = S.taken x) → (∀ i, k.inner = some i → t d.h ++ p = g i) → (k.inner = none → t d.h = []) →
      Inv e { s := S.s.setS d.h { k with peek := p }, given := g, taken := t } := by
    intro g t p h0 h1 h2 h3 h4
    refine hi.change (k' := { k with peek := p }) hk0 rfl rfl rfl (.inl ⟨hin, rfl⟩) ?_ h1 h2 (fun _ => h3) h4
    exact ⟨hg.1, hg.2, h0, hg.4⟩
  have hpn : k.peek.drop n ≠ [] → k.inner ≠ none := fun h => hg.peek (by intro h'; simp [h'] at h)
  have short : Inv e { s := S.s.setS d.h (if peek then k else { k with peek := k.peek.drop n }),
                       given := S.given,
                       taken := if peek then S.taken else upd S.taken d.h (S.taken d.h ++ k.peek.take n) } := by
    cases peek with
    | true => exact base S.given S.taken k.peek hg.peek (fun _ _ => rfl) (fun _ _ => rfl) hstr hun
    | false =>
      refine base S.given _ (k.peek.drop n) hpn (fun _ _ => rfl) (fun x hx => by simp [hx]) ?_ ?_
      · intro i h; simpa [List.append_assoc, hcut] using hstr i h
      · intro h
        have : k.peek = [] := Decidable.byContradiction fun hc => hg.peek hc h
        simp [hun h, this]
  have nothing : k.peek.take n = [] → Inv e
      { s := S.s.setS d.h (if peek then k else { k with peek := k.peek.drop n })
        given := S.given
        taken := if peek then S.taken else upd S.taken d.h (S.taken d.h ++ []) } := by
    intro h; rw [h] at short; exact short
  unfold recvTcp
  dsimp only
  split
  · exact short
  · rename_i hnl
    split
    · rename_i hinn
      dsimp only [Out.r, noteGiven]
      refine nothing ?_
      have : k.peek = [] := Decidable.byContradiction fun hc => hg.peek hc hinn
      simp [this]
    · rename_i i hinn
      have hlen : n - (k.peek.take n).length = n → k.peek.take n = [] := by
        intro h
        rcases Nat.eq_zero_or_pos n with h0 | h0
        · simp [h0]
        · have hle : (k.peek.take n).length ≤ n := by simp; omega
          exact List.length_eq_zero_iff.1 (by omega)
      cases hr with
      | fail er =>
        dsimp only
        split
        · exact short
        · rename_i hle
          split
          · exact nothing (hlen (Decidable.byContradiction hle))
          · exact nothing (hlen (Decidable.byContradiction hle))
      | ok bs src =>
        have h3 := hstr i hinn
        cases peek with
        | true =>
          refine base (upd S.given i (S.given i ++ bs.take (n - (k.peek.take n).length))) S.taken _ (fun _ => by simp [hinn]) (fun j hj => ?_) (fun _ _ => rfl) ?_ (fun h => by simp [hinn] at h)
          · rw [upd_ne]; rintro rfl; exact hj hinn
          · intro j hj; rw [hinn] at hj; cases hj
            simp [← h3]
        | false =>
          refine base (upd S.given i (S.given i ++ bs.take (n - (k.peek.take n).length)))
            (upd S.taken d.h (S.taken d.h ++ (k.peek.take n ++ bs.take (n - (k.peek.take n).length)))) (k.peek.drop n) hpn (fun j hj => ?_) (fun x hx => by simp [hx]) ?_ (fun h => by simp [hinn] at h)
          · rw [upd_ne]; rintro rfl; exact hj hinn
          · intro j hj; rw [hinn] at hj; cases hj
            simp only [upd_same, ← h3]
            by_cases hcase : k.peek = []
            · simp [hcase]
            · have hd : k.peek.drop n = [] := by
                have hne : ¬ n - (k.peek.take n).length = 0 := fun h => hnl ⟨hcase, h⟩
                simp only [List.length_take] at hne
                simp; omega
              have ht : k.peek.take n = k.peek := by rw [hd] at hcut; simpa using hcut
              simp [hd, ht]

theorem settle_some {k k' : Sock} {rdy : Bool} (h : settle k rdy = some k') :
    k' = k ∨ (k.st = .inProgress ∧ k' = { k with st := .connected }) := by
  unfold settle at h
  split at h
  · split at h
    · simp at h
    · split at h <;> simp_all
  · simp_all

theorem Inv.step {e : Env} {S : Sys} (hi : Inv e S) (op : Op) : Inv e (S.step e op) := by
  have id : ∀ r : Ret, Inv e { s := S.s, given := noteGiven S.given (.r r), taken := S.taken } := fun _ => hi
  have idT : ∀ (r : Ret) (fd n : Nat) (p : Bool) (f : Option Bool) (rd : Bool) (hb : Option Errno) (hr : HRecv) (s' : State),
      noteTaken S.taken s' (.recv fd n p f rd hb hr) (.r r) = S.taken := by
    intro r fd n p f rd hb hr s'
    unfold noteTaken
    cases p
    · dsimp only
      split
      · funext x; simp only [upd_apply, Out.r, List.append_nil]; split <;> simp_all
      · rfl
    · rfl
  have hostSendI : ∀ {s1 : State} {d : Desc} {k k1 : Sock} (data : List UInt8) (to : Option SA) (hs : HSend),
      S.s.socks d.h = some k → Helped S.s k s1 k1 →
      Inv e { s := (hostSend s1 d k1 data to hs).1, given := noteGiven S.given (hostSend s1 d k1 data to hs).2, taken := S.taken } := by
    intro s1 d k k1 data to hs hk hh
    unfold hostSend
    split
    · exact hi.helped hk hh rfl rfl rfl rfl (.inl rfl)
    · exact hi.helped hk hh rfl rfl rfl rfl (.inl rfl)
  have sendtoI : ∀ fd data to hb hs, Inv e
      { s := (sendtoAddr e S.s fd data to hb hs).1, given := noteGiven S.given (sendtoAddr e S.s fd data to hb hs).2, taken := S.taken } := by
    intro fd data to hb hs
    unfold sendtoAddr
    refine withSock_elim (fun X => Inv e { s := X.1, given := noteGiven S.given X.2, taken := S.taken }) id ?_
    intro d k _ hd hk
    split
    · exact hi
    · split
      · exact hi
      · split
        · exact hi
        · have hh := implicitBind_helped e S.s k to.1.v6 hb
          dsimp only
          split
          · exact hostSendI data _ hs hk hh
          · exact hi.helped hk hh rfl rfl rfl rfl (.inl rfl)
  have sendI : ∀ fd data hb hs, Inv e
      { s := (send e S.s fd data hb hs).1, given := noteGiven S.given (send e S.s fd data hb hs).2, taken := S.taken } := by
    intro fd data hb hs
    unfold send
    refine withSock_elim (fun X => Inv e { s := X.1, given := noteGiven S.given X.2, taken := S.taken }) id ?_
    intro d k _ hd hk
    split
    · split
      · exact hi
      · exact hostSendI data _ hs hk (.refl _ _)
    · split
      · exact hi
      · split
        · exact hi
        · exact sendtoI fd data _ hb hs
  cases op with
  | socket v6 tcp nb clo =>
    simp only [Sys.step, InetSock.step, socket, noteTaken]
    cases h : lowest e S.s with
    | none => exact hi
    | some fd =>
      obtain ⟨h1, h2, _⟩ := lowest_some h
      exact hi.add (k := { ty := ⟨v6, tcp⟩ }) h1 h2 rfl rfl rfl rfl (Nat.le_refl _) (by constructor <;> simp) (by simp) rfl
  | setReuse fd =>
    simp only [Sys.step, InetSock.step, setReuse, noteTaken]
    refine withSock_elim (fun X => Inv e { s := X.1, given := noteGiven S.given X.2, taken := S.taken }) id ?_
    intro d k _ hd hk
    · have g := hi.good _ _ hk
      exact hi.change' (k' := { k with reuse := true }) hk rfl rfl rfl (.inl ⟨rfl, rfl⟩) ⟨g.1, g.2, g.3, g.4⟩ rfl rfl
  | dup fd =>
    simp only [Sys.step, InetSock.step, dup, noteTaken]
    refine withSock_elim (fun X => Inv e { s := X.1, given := noteGiven S.given X.2, taken := S.taken }) id ?_
    intro d k _ hd hk
    · cases hl : lowest e S.s with
      | none => exact hi
      | some fd' =>
        obtain ⟨h1, h2, _⟩ := lowest_some hl
        exact hi.share (d' := { d with clo := false }) hd rfl h1 h2
  | bind fd to hb =>
    simp only [Sys.step, InetSock.step, bind, noteTaken]
    refine withSock_elim (fun X => Inv e { s := X.1, given := noteGiven S.given X.2, taken := S.taken }) id ?_
    intro d k _ hd hk
    · exact hi.helped hk (bindInner_helped e S.s k to false hb) rfl rfl rfl rfl (.inl rfl)
  | connect fd to hb hc =>
    simp only [Sys.step, InetSock.step, connect, noteTaken]
    refine withSock_elim (fun X => Inv e { s := X.1, given := noteGiven S.given X.2, taken := S.taken }) id ?_
    intro d k _ hd hk
    · split
      · exact hi
      · split
        · rename_i htcp
          have host : ∀ (s1 : State) (k1 : Sock), Helped S.s k s1 k1 →
              Inv e { s := (connectHost s1 d k1 to hc).1, given := noteGiven S.given (connectHost s1 d k1 to hc).2, taken := S.taken } := by
            intro s1 k1 hh
            have htcp' : k1.ty.tcp = true := by rw [hh.kept.ty]; exact htcp
            unfold connectHost
            split
            · exact hi.helped hk hh rfl rfl rfl rfl (.inl rfl)
            · rename_i i hin
              cases hc <;> dsimp only [noteGiven, Out.r]
              · exact hi.helped hk hh rfl rfl rfl rfl (.inr fun _ => ⟨htcp', by simp [hin]⟩)
              · exact hi.helped hk hh rfl rfl rfl rfl (.inr fun _ => ⟨htcp', by simp [hin]⟩)
              · exact hi.helped hk hh rfl rfl rfl rfl (.inl rfl)
          unfold connectTcp
          split
          · exact hi
          · split
            · exact host _ _ (.refl _ _)
            · dsimp only
              have hf := force_helped S.s k
              split
              · exact hi.helped hk hf rfl rfl rfl rfl (.inl rfl)
              · rename_i ha
                exact hi.helped hk (hf.trans (.after (assignAddr_same ha))) rfl rfl rfl rfl (.inl rfl)
              · rename_i a ha
                have hh := hf.trans (.after (assignAddr_same ha))
                split
                · exact hi.helped hk (hh.setLaddr (force_inner S.s k) (some a)) rfl rfl rfl rfl (.inl rfl)
                · exact host _ _ hh
        · unfold connectUdp
          have hh := implicitBind_helped e S.s { k with raddr := some to } k.ty.v6 hb
          have g := hi.good _ _ hk
          have h2 : Helped S.s k (implicitBind e S.s { k with raddr := some to } k.ty.v6 hb).1
              { (implicitBind e S.s { k with raddr := some to } k.ty.v6 hb).2.1 with raddr := k.raddr } :=
            ⟨hh.1, hh.2, ⟨hh.3.1, hh.3.2, hh.3.3, rfl, hh.3.5⟩, hh.4⟩
          exact hi.helped hk h2 rfl rfl rfl rfl (.inl rfl)
  | listen fd hb hl stale =>
    simp only [Sys.step, InetSock.step, listen, noteTaken]
    refine withSock_elim (fun X => Inv e { s := X.1, given := noteGiven S.given X.2, taken := S.taken }) id ?_
    intro d k _ hd hk
    · split
      · exact hi
      · exact hi
      · exact hi
      · exact hi
      · exact hi
      · split
        · rename_i htcp
          have hh := implicitBind_helped e S.s k k.ty.v6 hb
          have hok := implicitBind_ok (e := e) (s := S.s) (k := k) (v6 := k.ty.v6) (hb := hb) (hi.good _ _ hk).laddr
          generalize hB : implicitBind e S.s k k.ty.v6 hb = B at *
          obtain ⟨s1, k1, o⟩ := B
          dsimp only at *
          have htcp' : k1.ty.tcp = true := by rw [hh.kept.ty]; exact htcp
          split
          · unfold listenHost
            split
            · exact hi.helped hk hh rfl rfl rfl rfl (.inl rfl)
            · split
              · exact hi.helped hk hh rfl rfl rfl rfl (.inl rfl)
              · split
                · exact hi.helped hk hh rfl rfl rfl rfl (.inl rfl)
                · rename_i a ha _ i hin _
                  have h3 := hi.helped (k' := { k1 with st := .listen }) hk hh rfl rfl rfl rfl
                    (.inr fun _ => ⟨htcp', by simp [hin]⟩)
                  exact h3.same rfl rfl rfl (Nat.le_refl _)
          · exact hi.helped hk hh rfl rfl rfl rfl (.inl rfl)
          · exact hi.helped hk hh rfl rfl rfl rfl (.inl rfl)
        · exact hi
  | accept fd ha =>
    simp only [Sys.step, InetSock.step, accept, noteTaken]
    refine withSock_elim (fun X => Inv e { s := X.1, given := noteGiven S.given X.2, taken := S.taken }) id ?_
    intro d k _ hd hk
    · cases hl : lowest e S.s with
      | none => exact hi
      | some newfd =>
        obtain ⟨h1, h2, _⟩ := lowest_some hl
        dsimp only
        split
        · exact hi
        · rename_i htcp
          split
          · exact hi
          · unfold acceptInet
            split
            · exact hi
            · split
              · exact hi
              · split
                · exact hi
                · split
                  · split <;> exact hi
                  · split
                    · refine hi.add (d := { h := S.s.ns, nb := d.nb, clo := d.clo }) h1 h2 rfl rfl rfl rfl (Nat.le_succ _) ?_ ?_ rfl
                      · refine ⟨by simp, ?_, by simp, by simp⟩
                        intro _
                        exact ⟨by simpa using htcp, by simp⟩
                      · intro i h; cases h; exact Nat.le_refl _
                    · exact hi.same rfl rfl rfl (Nat.le_succ _)
  | send fd data hb hs =>
    exact sendI fd data hb hs
  | sendto fd data to hb hs =>
    simp only [Sys.step, InetSock.step, sendto, noteTaken]
    split
    · exact sendI fd data hb hs
    · exact sendtoI fd data to hb hs
  | recv fd n peek fam rdy hb hr =>
    simp only [Sys.step, InetSock.step, recv]
    refine withSock_elim (fun X => Inv e
      { s := X.1, given := noteGiven S.given X.2, taken := noteTaken S.taken S.s (.recv fd n peek fam rdy hb hr) X.2 }) ?_ ?_
    · intro r; rw [idT]; exact hi
    intro d k _ hd hk
    have hT : ∀ o : Out, noteTaken S.taken S.s (.recv fd n peek fam rdy hb hr) o =
        if peek then S.taken else upd S.taken d.h (S.taken d.h ++ o.bytes) := by
      intro o; cases peek <;> simp [noteTaken, sockOf, hd]
    split
    · rename_i htcp
      split
      · rw [idT]; exact hi
      · rename_i k' hset
        have hk' := settle_some hset
        have g := hi.good _ _ hk
        have g' : Good k' S.s.nhost := by
          rcases hk' with rfl | ⟨h1, rfl⟩
          · exact g
          · exact ⟨g.1, fun _ => g.2 (.inr (.inr h1)), g.3, g.4⟩
        have hsame : k'.ty = k.ty ∧ k'.inner = k.inner ∧ k'.peek = k.peek ∧ k'.laddr = k.laddr := by
          rcases hk' with rfl | ⟨h1, rfl⟩ <;> simp
        obtain ⟨e1, e2, e3, e4⟩ := hsame
        split
        · rw [idT]
          exact hi.change' hk rfl rfl rfl (.inl ⟨e2, rfl⟩) g' e1 e3
        · rw [hT]
          exact recvTcp_inv hi hk e1 e2 e3 (by rw [e1]; exact htcp) g' n peek hr
    · rename_i htcp
      have hh := implicitBind_helped e S.s k (fam.getD false) hb
      have hok := implicitBind_ok (e := e) (s := S.s) (k := k) (v6 := fam.getD false) (hb := hb) (hi.good _ _ hk).laddr
      unfold recvUdp
      generalize hB : implicitBind e S.s k (fam.getD false) hb = B at *
      obtain ⟨s1, k1, o⟩ := B
      dsimp only at *
      have plain := hi.helped (k' := k1) hk hh rfl rfl rfl rfl (.inl rfl)
      have hudp : k1.ty.tcp = false := by rw [hh.kept.ty]; simpa using htcp
      split
      · rw [idT]; exact plain
      · split
        · rw [idT]; exact plain
        · rename_i i hin
          split
          · split <;> (rw [idT]; exact plain)
          · rename_i bs src
            rw [hT]
            refine hi.change (k' := k1) hk hh.same.tab hh.same.ns ?_ ?_ (hh.good (hi.good _ _ hk)) ?_ ?_ ?_ ?_
            · simp [State.setS, hh.same.socks]
            · exact hh.link
            · intro j hj
              simp only [noteGiven]
              rw [upd_ne]
              rintro rfl; exact hj hin
            · intro x hx; split <;> simp [hx]
            · simp [hudp]
            · simp [hin]
  | shutdown fd how hsd =>
    simp only [Sys.step, InetSock.step, shutdown, noteTaken]
    split
    · split
      · refine withSock_elim (fun X => Inv e { s := X.1, given := noteGiven S.given X.2, taken := S.taken }) id ?_
        intro d k _ hd hk
        split
        · exact hi
        · generalize hG : (if k.inner.isSome = true ∧ shutReleases k.st how = true then giveBack e S.s k else (S.s, k, none)) = G
          have hh : Helped S.s k G.1 G.2.1 := by
            rw [← hG]
            split
            · rename_i hc
              obtain ⟨a1, a2, a3⟩ := giveBack_same e S.s k
              rw [a3]
              exact ⟨a1, .inl ⟨rfl, a2⟩, ⟨rfl, rfl, rfl, rfl, rfl⟩, by simp⟩
            · exact .refl _ _
          obtain ⟨s1, k1, o⟩ := G
          dsimp only at *
          split
          · exact hi.helped hk hh rfl rfl rfl rfl (.inl rfl)
          · have hst : shutState k.st how ≠ .connected ∧ shutState k.st how ≠ .listen ∧ shutState k.st how ≠ .inProgress := by
              unfold shutState; repeat' split
              all_goals simp
            have hs' := hi.helped (k' := { k1 with st := shutState k.st how }) hk hh rfl rfl rfl rfl
              (.inr fun h => by rcases h with h | h | h <;> simp_all)
            split
            · have htab : (s1.setS d.h { k1 with st := shutState k.st how }).tab fd = some d := by
                simp [State.setS, hh.same.tab, hd]
              have := hs'.drop htab (.ok 0)
              have hgot := dropIfLast_got e { s1.setS d.h { k1 with st := shutState k.st how } with
                tab := upd (s1.setS d.h { k1 with st := shutState k.st how }).tab fd none } d.h (.ok 0)
              simpa [noteGiven, hgot] using this
            · exact hs'
      · exact hi
    · exact hi
  | close fd =>
    simp only [Sys.step, InetSock.step, close, noteTaken]
    refine withSock_elim (fun X => Inv e { s := X.1, given := noteGiven S.given X.2, taken := S.taken }) id ?_
    intro d k _ hd hk
    · have := hi.drop hd (.ok 0)
      have hgot := dropIfLast_got e { S.s with tab := upd S.s.tab fd none } d.h (.ok 0)
      simpa [noteGiven, hgot] using this

theorem Reach.inv {e : Env} {S : Sys} (h : Reach e S) : Inv e S := by
  induction h with
  | init => exact .init e
  | step _ op ih => exact ih.step op

end Verif.InetSock
