import Verif.InetSockLemmas

/-!
# Internet sockets: what one call changes
-/

namespace Verif.InetSock

open Verif.Ports (Addr PType Net)

/-- Descriptor `fd` leads to the socket `d.h`, whose contents are `k`. -/
structure At (s : State) (fd : Nat) (d : Desc) (k : Sock) : Prop where
  tab : s.tab fd = some d
  sock : s.socks d.h = some k

theorem At.with {e : Env} {S : Sys} (h : Reach e S) {fd : Nat} {d : Desc} {k : Sock} (ha : At S.s fd d k)
    (f : Desc → Sock → State × Out) : withSock e S.s fd f = f d k := by
  have h1 := (h.inv.tab fd d ha.tab).1
  simp [withSock, h1, ha.tab, ha.sock]

theorem recvTcp_peek {s : State} {d : Desc} {k : Sock} {i n : Nat} {hr : HRecv} (hi : k.inner = some i) :
    ∃ pb, (recvTcp s d k n true hr).1 = s.setS d.h { k with peek := pb } ∧ (recvTcp s d k n true hr).2.bytes <+: pb := by
  obtain ⟨ty, reuse, st, la, ra, inn, pk⟩ := k
  dsimp only at hi
  subst hi
  by_cases h0 : pk ≠ [] ∧ n - (pk.take n).length = 0
  · refine ⟨pk, ?_⟩
    simp only [recvTcp, if_pos h0]
    exact ⟨rfl, List.take_prefix _ _⟩
  · cases hr with
    | fail er =>
      refine ⟨pk, ?_⟩
      simp only [recvTcp, if_neg h0, if_true]
      repeat' split
      all_goals first | exact ⟨rfl, List.take_prefix _ _⟩ | exact ⟨rfl, List.nil_prefix⟩
    | ok bs src =>
      refine ⟨pk ++ bs.take (n - (pk.take n).length), ?_⟩
      simp only [recvTcp, if_neg h0, if_true]
      refine ⟨trivial, ?_⟩
      have h2 : pk.take n = pk ∨ pk = [] := by
        by_cases hp : pk = []
        · exact .inr hp
        · refine .inl (List.take_of_length_le ?_)
          simp only [not_and] at h0
          have := h0 hp
          simp only [List.length_take] at this
          omega
      rcases h2 with h2 | h2
      · rw [h2]; exact List.prefix_rfl
      · simp [h2]

/-- Only socket `x` may have changed, from `k` to something that satisfies `P`. -/
structure Touch (s : State) (x : Nat) (k : Sock) (s' : State) (P : Sock → Prop) : Prop where
  tab : s'.tab = s.tab
  ns : s'.ns = s.ns
  others : ∀ y, y ≠ x → s'.socks y = s.socks y
  here : ∃ k', s'.socks x = some k' ∧ k'.ty = k.ty ∧ P k'

theorem Touch.refl {s : State} {x : Nat} {k : Sock} {P : Sock → Prop} (hk : s.socks x = some k) (hp : P k) : Touch s x k s P :=
  ⟨rfl, rfl, fun _ _ => rfl, k, hk, rfl, hp⟩

theorem Touch.set {s s1 : State} {x : Nat} {k k1 k' : Sock} {P : Sock → Prop} (hh : Helped s k s1 k1) (hty : k'.ty = k1.ty)
    (hp : P k') : Touch s x k (s1.setS x k') P := by
  refine ⟨hh.same.tab, hh.same.ns, ?_, k', by simp [State.setS], hty.trans hh.kept.ty, hp⟩
  intro y hy
  simp [State.setS, upd_ne _ _ hy, hh.same.socks]

theorem Touch.mono {s : State} {x : Nat} {k : Sock} {s' : State} {P Q : Sock → Prop} (h : Touch s x k s' P) (hpq : ∀ k', P k' → Q k') :
    Touch s x k s' Q :=
  ⟨h.tab, h.ns, h.others, let ⟨k', a, b, c⟩ := h.here; ⟨k', a, b, hpq k' c⟩⟩

theorem touch_bind {e : Env} {S : Sys} (h : Reach e S) {fd : Nat} {d : Desc} {k : Sock} (ha : At S.s fd d k) (to : SA)
    (hb : Option Errno) : Touch S.s d.h k (step e S.s (.bind fd to hb)).1 (fun k' => k'.st = k.st ∧ k'.raddr = k.raddr) := by
  simp only [step, bind]
  rw [ha.with h]
  have hh := bindInner_helped e S.s k to false hb
  exact .set hh rfl ⟨hh.kept.st, hh.kept.raddr⟩

theorem touch_connectHost {s s1 : State} {d : Desc} {k k1 : Sock} (hh : Helped s k s1 k1) (to : SA) (hc : HConn) :
    Touch s d.h k (connectHost s1 d k1 to hc).1 (fun k' => (k'.st = k.st ∧ k'.raddr = k.raddr) ∨
      ((connectHost s1 d k1 to hc).2.ret = .ok 0 ∧ hc = .ok ∧ k'.st = .connected ∧ k'.raddr = some to) ∨
      ((connectHost s1 d k1 to hc).2.ret = .err .EINPROGRESS ∧ hc = .inProgress ∧ k'.st = .inProgress ∧ k'.raddr = some to)) := by
  unfold connectHost
  split
  · exact .set hh rfl (.inl ⟨hh.kept.st, hh.kept.raddr⟩)
  · cases hc
    · exact .set hh rfl (.inr (.inl ⟨rfl, rfl, rfl, rfl⟩))
    · exact .set hh rfl (.inr (.inr ⟨rfl, rfl, rfl, rfl⟩))
    · exact .set hh rfl (.inl ⟨hh.kept.st, hh.kept.raddr⟩)

theorem touch_connect {e : Env} {S : Sys} (h : Reach e S) {fd : Nat} {d : Desc} {k : Sock} (ha : At S.s fd d k) (to : SA)
    (hb : Option Errno) (hc : HConn) :
    Touch S.s d.h k (step e S.s (.connect fd to hb hc)).1 (fun k' => (k'.st = k.st ∧ (k.ty.tcp = true → k'.raddr = k.raddr)) ∨
      (k.st = .notConnected ∧ k.ty.tcp = true ∧ k'.raddr = some to ∧
        (((step e S.s (.connect fd to hb hc)).2.ret = .ok 0 ∧ hc = .ok ∧ k'.st = .connected) ∨
          ((step e S.s (.connect fd to hb hc)).2.ret = .err .EINPROGRESS ∧ hc = .inProgress ∧ k'.st = .inProgress)))) := by
  simp only [step, connect]
  rw [ha.with h]
  split
  · exact .refl ha.sock (.inl ⟨rfl, fun _ => rfl⟩)
  · cases ht : k.ty.tcp with
    | false =>
      simp only [Bool.false_eq_true, if_false]
      unfold connectUdp
      have hh := implicitBind_helped e S.s { k with raddr := some to } k.ty.v6 hb
      refine ⟨hh.same.tab, hh.same.ns, ?_, _, by simp [State.setS], hh.kept.ty, .inl ⟨hh.kept.st, by simp⟩⟩
      intro y hy
      simp [State.setS, upd_ne _ _ hy, hh.same.socks]
    | true =>
      simp only [if_true]
      unfold connectTcp
      split
      · exact .refl ha.sock (.inl ⟨rfl, fun _ => rfl⟩)
      · rename_i hst
        have hst' : k.st = .notConnected := by simpa using hst
        split
        · refine (touch_connectHost (.refl S.s k) to hc).mono ?_
          rintro k' (⟨a, b⟩ | ⟨a, b, c, d⟩ | ⟨a, b, c, d⟩)
          · exact .inl ⟨a, fun _ => b⟩
          · exact .inr ⟨hst', trivial, d, .inl ⟨a, b, c⟩⟩
          · exact .inr ⟨hst', trivial, d, .inr ⟨a, b, c⟩⟩
        · have hf := force_helped S.s k
          dsimp only
          split
          · exact .set hf rfl (.inl ⟨hf.kept.st, fun _ => hf.kept.raddr⟩)
          · rename_i s' er hx
            have hh := hf.trans (Helped.after (assignAddr_same hx))
            exact .set hh rfl (.inl ⟨hh.kept.st, fun _ => hh.kept.raddr⟩)
          · rename_i s' a hx
            have hh := hf.trans (Helped.after (k := (force S.s k).2) (assignAddr_same hx))
            split
            · exact .set hh rfl (.inl ⟨hh.kept.st, fun _ => hh.kept.raddr⟩)
            · refine (touch_connectHost hh to hc).mono ?_
              rintro k' (⟨a, b⟩ | ⟨a, b, c, d⟩ | ⟨a, b, c, d⟩)
              · exact .inl ⟨a, fun _ => b⟩
              · exact .inr ⟨hst', trivial, d, .inl ⟨a, b, c⟩⟩
              · exact .inr ⟨hst', trivial, d, .inr ⟨a, b, c⟩⟩

theorem touch_listen {e : Env} {S : Sys} (h : Reach e S) {fd : Nat} {d : Desc} {k : Sock} (ha : At S.s fd d k)
    (hb hl stale : Option Errno) :
    Touch S.s d.h k (step e S.s (.listen fd hb hl stale)).1 (fun k' => k'.raddr = k.raddr ∧ (k'.st = k.st ∨
      (k.st = .notConnected ∧ k.ty.tcp = true ∧ k'.st = .listen ∧ hl = none ∧ (step e S.s (.listen fd hb hl stale)).2.ret = .ok 0))) := by
  simp only [step, listen]
  rw [ha.with h]
  cases hst : k.st <;> dsimp only
  · split
    · have hh := implicitBind_helped e S.s k k.ty.v6 hb
      split
      · unfold listenHost
        split
        · exact .set hh rfl ⟨hh.kept.raddr, .inl (hh.kept.st.trans hst)⟩
        · split
          · exact .set hh rfl ⟨hh.kept.raddr, .inl (hh.kept.st.trans hst)⟩
          · split
            · exact .set hh rfl ⟨hh.kept.raddr, .inl (hh.kept.st.trans hst)⟩
            · refine ⟨hh.same.tab, hh.same.ns, ?_, { (implicitBind e S.s k k.ty.v6 hb).2.1 with st := .listen }, by simp [State.setS], hh.kept.ty, hh.kept.raddr, .inr ⟨rfl, by assumption, rfl, rfl, rfl⟩⟩
              intro y hy
              simp [State.setS, upd_ne _ _ hy, hh.same.socks]
      · exact .set hh rfl ⟨hh.kept.raddr, .inl (hh.kept.st.trans hst)⟩
      · exact .set hh rfl ⟨hh.kept.raddr, .inl (hh.kept.st.trans hst)⟩
    · exact .refl ha.sock ⟨rfl, .inl hst⟩
  all_goals exact .refl ha.sock ⟨rfl, .inl hst⟩

theorem touch_hostSend {s s1 : State} {d : Desc} {k k1 : Sock} (hh : Helped s k s1 k1) (data : List UInt8) (to : Option SA) (hs : HSend) :
    Touch s d.h k (hostSend s1 d k1 data to hs).1 (fun k' => k'.st = k.st ∧ k'.raddr = k.raddr) := by
  unfold hostSend
  split <;> exact .set hh rfl ⟨hh.kept.st, hh.kept.raddr⟩

theorem touch_sendtoAddr {e : Env} {S : Sys} (h : Reach e S) {fd : Nat} {d : Desc} {k : Sock} (ha : At S.s fd d k)
    (data : List UInt8) (to : SA) (hb : Option Errno) (hs : HSend) :
    Touch S.s d.h k (sendtoAddr e S.s fd data to hb hs).1 (fun k' => k'.st = k.st ∧ k'.raddr = k.raddr) := by
  unfold sendtoAddr
  rw [ha.with h]
  have r : Touch S.s d.h k S.s (fun k' => k'.st = k.st ∧ k'.raddr = k.raddr) := .refl ha.sock ⟨rfl, rfl⟩
  split
  · exact r
  · split
    · exact r
    · split
      · exact r
      · have hh := implicitBind_helped e S.s k to.1.v6 hb
        dsimp only
        split
        · exact touch_hostSend hh _ _ _
        · exact .set hh rfl ⟨hh.kept.st, hh.kept.raddr⟩

theorem touch_send {e : Env} {S : Sys} (h : Reach e S) {fd : Nat} {d : Desc} {k : Sock} (ha : At S.s fd d k)
    (data : List UInt8) (hb : Option Errno) (hs : HSend) :
    Touch S.s d.h k (step e S.s (.send fd data hb hs)).1 (fun k' => k'.st = k.st ∧ k'.raddr = k.raddr) := by
  simp only [step, send]
  rw [ha.with h]
  have r : Touch S.s d.h k S.s (fun k' => k'.st = k.st ∧ k'.raddr = k.raddr) := .refl ha.sock ⟨rfl, rfl⟩
  split
  · split
    · exact r
    · exact touch_hostSend (.refl _ _) _ _ _
  · split
    · exact r
    · split
      · exact r
      · exact touch_sendtoAddr h ha _ _ _ _

theorem touch_sendto {e : Env} {S : Sys} (h : Reach e S) {fd : Nat} {d : Desc} {k : Sock} (ha : At S.s fd d k)
    (data : List UInt8) (to : SA) (hb : Option Errno) (hs : HSend) :
    Touch S.s d.h k (step e S.s (.sendto fd data to hb hs)).1 (fun k' => k'.st = k.st ∧ k'.raddr = k.raddr) := by
  simp only [step, sendto]
  split
  · exact touch_send h ha _ _ _
  · exact touch_sendtoAddr h ha _ _ _ _

theorem touch_recv {e : Env} {S : Sys} (h : Reach e S) {fd : Nat} {d : Desc} {k : Sock} (ha : At S.s fd d k) (n : Nat)
    (pk rdy : Bool) (fam : Option Bool) (hb : Option Errno) (hr : HRecv) :
    Touch S.s d.h k (step e S.s (.recv fd n pk fam rdy hb hr)).1 (fun k' => k'.raddr = k.raddr ∧
      (k'.st = k.st ∨ (k.st = .inProgress ∧ rdy = true ∧ k'.st = .connected))) := by
  simp only [step, recv]
  rw [ha.with h]
  have r : Touch S.s d.h k S.s (fun k' => k'.raddr = k.raddr ∧
      (k'.st = k.st ∨ (k.st = .inProgress ∧ rdy = true ∧ k'.st = .connected))) := .refl ha.sock ⟨rfl, .inl rfl⟩
  have set : ∀ k' : Sock, k'.ty = k.ty → k'.raddr = k.raddr → (k'.st = k.st ∨ (k.st = .inProgress ∧ rdy = true ∧ k'.st = .connected)) →
      Touch S.s d.h k (S.s.setS d.h k') (fun k' => k'.raddr = k.raddr ∧
        (k'.st = k.st ∨ (k.st = .inProgress ∧ rdy = true ∧ k'.st = .connected))) :=
    fun k' h1 h2 h3 => .set (.refl _ _) h1 ⟨h2, h3⟩
  split
  · split
    · exact r
    · rename_i k' hk'
      have hk : k'.ty = k.ty ∧ k'.raddr = k.raddr ∧ (k'.st = k.st ∨ (k.st = .inProgress ∧ rdy = true ∧ k'.st = .connected)) := by
        unfold settle at hk'
        repeat' split at hk'
        all_goals (simp at hk'; try subst hk')
        all_goals simp_all
      split
      · exact set k' hk.1 hk.2.1 hk.2.2
      · unfold recvTcp
        dsimp only
        cases pk <;> simp only [Bool.false_eq_true, if_false, if_true] <;> repeat' split
        all_goals first
          | exact set _ hk.1 hk.2.1 hk.2.2
          | skip
  · have hh := implicitBind_helped e S.s k (fam.getD false) hb
    unfold recvUdp
    dsimp only
    repeat' split
    all_goals exact .set hh rfl ⟨hh.kept.raddr, .inl hh.kept.st⟩

/-- The descriptor a call is made on. -/
def Op.on : Op → Option Nat
  | .socket _ _ _ _ => none
  | .setReuse fd => some fd
  | .dup fd => some fd
  | .bind fd _ _ => some fd
  | .connect fd _ _ _ => some fd
  | .listen fd _ _ _ => some fd
  | .accept fd _ => some fd
  | .send fd _ _ _ => some fd
  | .sendto fd _ _ _ _ => some fd
  | .recv fd _ _ _ _ _ _ => some fd
  | .shutdown fd _ _ => some fd
  | .close fd => some fd

theorem At.or {e : Env} {S : Sys} (h : Reach e S) (fd : Nat) :
    (∃ d k, At S.s fd d k) ∨ (S.s.tab fd = none ∧ ∀ f, withSock e S.s fd f = (S.s, .r (if fd < e.nfd then .err .EBADF else .panic))) := by
  cases ht : S.s.tab fd with
  | none =>
    refine .inr ⟨rfl, fun f => ?_⟩
    unfold withSock
    split <;> simp [ht]
  | some d =>
    obtain ⟨k, hk⟩ := Option.ne_none_iff_exists'.1 (h.inv.tab fd d ht).2
    exact .inl ⟨d, k, ht, hk⟩

theorem dropIfLast_others (e : Env) (s : State) (h : Nat) (r : Ret) :
    (dropIfLast e s h r).1.tab = s.tab ∧ (∀ y, y ≠ h → (dropIfLast e s h r).1.socks y = s.socks y) ∧
      (dropIfLast e s h r).1.ns = s.ns := by
  unfold dropIfLast
  split
  · exact ⟨rfl, fun _ _ => rfl, rfl⟩
  · split
    · exact ⟨rfl, fun _ _ => rfl, rfl⟩
    · split
      · exact ⟨rfl, fun y hy => by simp [upd_ne _ _ hy], rfl⟩
      · rename_i k _ _ _ _
        have := giveBack_same e s k
        exact ⟨this.1.tab, fun y hy => by simp [upd_ne _ _ hy, this.1.socks], this.1.ns⟩

/-- The changes to the table and to other sockets made by one call. -/
structure Frame (s s' : State) (o : Option Nat) : Prop where
  tab : ∀ i, s.tab i ≠ none → o ≠ some i → s'.tab i = s.tab i
  socks : ∀ x, x < s.ns → (∀ fd d, o = some fd → s.tab fd = some d → d.h ≠ x) → s'.socks x = s.socks x
  ns : s.ns ≤ s'.ns

theorem Frame.refl (s : State) (o : Option Nat) : Frame s s o := ⟨fun _ _ _ => rfl, fun _ _ _ => rfl, Nat.le_refl _⟩

theorem Touch.frame {s s' : State} {fd : Nat} {d : Desc} {k : Sock} {P : Sock → Prop} (ha : At s fd d k)
    (h : Touch s d.h k s' P) : Frame s s' (some fd) := by
  refine ⟨fun i _ _ => by rw [h.tab], fun x hk hx => ?_, by rw [h.ns]; exact Nat.le_refl _⟩
  rw [h.others x (fun e => hx fd d rfl ha.tab e.symm)]

theorem shutdown_frame {e : Env} {S : Sys} (h : Reach e S) (fd : Nat) (how : Int) (hsd : Option Errno) :
    Frame S.s (step e S.s (.shutdown fd how hsd)).1 (some fd) := by
  simp only [step, shutdown]
  split
  · split
    · rcases At.or h fd with ⟨d, k, ha⟩ | ⟨_, hw⟩
      · rw [ha.with h]
        split
        · exact .refl _ _
        · have hg : ∀ g : State × Sock × Option Ret, (g = giveBack e S.s k ∨ g = (S.s, k, none)) → g.1.tab = S.s.tab ∧ g.1.socks = S.s.socks ∧ g.1.ns = S.s.ns := by
            rintro g (rfl | rfl)
            · exact ⟨(giveBack_same e S.s k).1.tab, (giveBack_same e S.s k).1.socks, (giveBack_same e S.s k).1.ns⟩
            · exact ⟨rfl, rfl, rfl⟩
          rename_i inner _ _
          have hg' := hg (if k.inner.isSome = true ∧ shutReleases k.st how = true then giveBack e S.s k else (S.s, k, none)) (by
            split
            · exact .inl rfl
            · exact .inr rfl)
          generalize (if k.inner.isSome = true ∧ shutReleases k.st how = true then giveBack e S.s k else (S.s, k, none)) = g at hg' ⊢
          have hne : ∀ x, (∀ fd' d', some fd = some fd' → S.s.tab fd' = some d' → d'.h ≠ x) → x ≠ d.h :=
            fun x hx e => hx fd d rfl ha.tab e.symm
          split
          · refine ⟨fun i _ _ => by simp [State.setS, hg'.1], fun x hk hx => ?_, by simp [State.setS, hg'.2.2]⟩
            simp [State.setS, hg'.2.1, upd_ne _ _ (hne x hx)]
          · split
            · obtain ⟨t1, t2, t3⟩ := dropIfLast_others e { (g.1.setS d.h { g.2.1 with st := shutState k.st how }) with tab := upd (g.1.setS d.h { g.2.1 with st := shutState k.st how }).tab fd none } d.h (.ok 0)
              refine ⟨fun i _ hi => ?_, fun x hk hx => ?_, by rw [t3]; simp [State.setS, hg'.2.2]⟩
              · rw [t1]
                have : i ≠ fd := fun e => hi (by rw [e])
                simp [State.setS, upd_ne _ _ this, hg'.1]
              · rw [t2 x (hne x hx)]
                simp [State.setS, hg'.2.1, upd_ne _ _ (hne x hx)]
            · refine ⟨fun i _ _ => by simp [State.setS, hg'.1], fun x hk hx => ?_, by simp [State.setS, hg'.2.2]⟩
              simp [State.setS, hg'.2.1, upd_ne _ _ (hne x hx)]
      · rw [hw]; exact .refl _ _
    · exact .refl _ _
  · exact .refl _ _

theorem step_frame {e : Env} {S : Sys} (h : Reach e S) (op : Op) : Frame S.s (step e S.s op).1 op.on := by
  cases op with
  | socket v6 tcp nb clo =>
    simp only [step, socket]
    cases hl : lowest e S.s with
    | none => exact .refl _ _
    | some fd =>
      obtain ⟨_, h2, _⟩ := lowest_some hl
      refine ⟨fun i hi _ => ?_, fun x hk _ => ?_, Nat.le_succ _⟩
      · exact upd_ne _ _ (fun e => hi (e ▸ h2))
      · simp [upd_ne _ _ (Nat.ne_of_lt hk)]
  | setReuse fd =>
    rcases At.or h fd with ⟨d, k, ha⟩ | ⟨_, hw⟩
    · have : Touch S.s d.h k (step e S.s (.setReuse fd)).1 (fun _ => True) := by
        simp only [step, setReuse]; rw [ha.with h]
        exact .set (.refl _ _) rfl trivial
      exact this.frame ha
    · simp only [step, setReuse, hw]; exact .refl _ _
  | dup fd =>
    rcases At.or h fd with ⟨d, k, ha⟩ | ⟨_, hw⟩
    · simp only [step, dup]; rw [ha.with h]
      cases hl : lowest e S.s with
      | none => exact .refl _ _
      | some fd =>
        obtain ⟨_, h2, _⟩ := lowest_some hl
        exact ⟨fun i hi _ => upd_ne _ _ (fun e => hi (e ▸ h2)), fun x hk _ => rfl, Nat.le_refl _⟩
    · simp only [step, dup, hw]; exact .refl _ _
  | bind fd to hb =>
    rcases At.or h fd with ⟨d, k, ha⟩ | ⟨_, hw⟩
    · exact (touch_bind h ha to hb).frame ha
    · simp only [step, bind, hw]; exact .refl _ _
  | connect fd to hb hc =>
    rcases At.or h fd with ⟨d, k, ha⟩ | ⟨_, hw⟩
    · exact (touch_connect h ha to hb hc).frame ha
    · simp only [step, connect, hw]; exact .refl _ _
  | listen fd hb hl stale =>
    rcases At.or h fd with ⟨d, k, ha⟩ | ⟨_, hw⟩
    · exact (touch_listen h ha hb hl stale).frame ha
    · simp only [step, listen, hw]; exact .refl _ _
  | accept fd hh =>
    rcases At.or h fd with ⟨d, k, ha⟩ | ⟨_, hw⟩
    · simp only [step, accept]; rw [ha.with h]
      cases hl : lowest e S.s with
      | none => exact .refl _ _
      | some nfd =>
        obtain ⟨_, h2, _⟩ := lowest_some hl
        dsimp only
        split
        · exact .refl _ _
        · split
          · exact .refl _ _
          · unfold acceptInet
            repeat' split
            all_goals first
              | exact .refl _ _
              | exact ⟨fun _ _ _ => rfl, fun _ _ _ => rfl, Nat.le_refl _⟩
              | exact ⟨fun i hi _ => upd_ne _ _ (fun e => hi (e ▸ h2)), fun x hk _ => by simp [upd_ne _ _ (Nat.ne_of_lt hk)], Nat.le_succ _⟩
    · simp only [step, accept, hw]; exact .refl _ _
  | send fd data hb hs =>
    rcases At.or h fd with ⟨d, k, ha⟩ | ⟨_, hw⟩
    · exact (touch_send h ha data hb hs).frame ha
    · simp only [step, send, hw]; exact .refl _ _
  | sendto fd data to hb hs =>
    rcases At.or h fd with ⟨d, k, ha⟩ | ⟨_, hw⟩
    · exact (touch_sendto h ha data to hb hs).frame ha
    · simp only [step, sendto, send, sendtoAddr, hw]; split <;> exact .refl _ _
  | recv fd n pk fam rdy hb hr =>
    rcases At.or h fd with ⟨d, k, ha⟩ | ⟨_, hw⟩
    · exact (touch_recv h ha n pk rdy fam hb hr).frame ha
    · simp only [step, recv, hw]; exact .refl _ _
  | shutdown fd how hsd => exact shutdown_frame h fd how hsd
  | close fd =>
    rcases At.or h fd with ⟨d, k, ha⟩ | ⟨_, hw⟩
    · simp only [step, close]; rw [ha.with h]
      obtain ⟨t1, t2, t3⟩ := dropIfLast_others e { S.s with tab := upd S.s.tab fd none } d.h (.ok 0)
      refine ⟨fun i _ hi => ?_, fun x hk hx => ?_, by rw [t3]; exact Nat.le_refl _⟩
      · rw [t1]; exact upd_ne _ _ (fun e => hi (by rw [e]; rfl))
      · rw [t2 x (fun e => hx fd d rfl ha.tab e.symm)]
    · simp only [step, close, hw]; exact .refl _ _

theorem dropIfLast_here (e : Env) (s : State) (h : Nat) (r : Ret) :
    (dropIfLast e s h r).1.socks h = none ∨ (dropIfLast e s h r).1.socks h = s.socks h := by
  unfold dropIfLast
  split
  · exact .inr rfl
  · split
    · exact .inr rfl
    · split
      · exact .inl (by simp)
      · exact .inl (by simp)

theorem reserve_kind (devs : List Addr) (n : Net) (a : Addr) (port : Nat) (ty : PType) (reb : Bool) :
    (∃ p, (Ports.reserve devs n a port ty reb).2 = .ok p) ∨ ∃ er, (Ports.reserve devs n a port ty reb).2 = .err er := by
  unfold Ports.reserve Ports.ephemeral
  dsimp only
  repeat' split
  all_goals first | exact .inl ⟨_, rfl⟩ | exact .inr ⟨_, rfl⟩

theorem release_kind (devs : List Addr) (n : Net) (a : Addr) (port : Nat) (ty : PType) :
    (∃ p, (Ports.release devs n a port ty).2 = .ok p) ∨ (∃ er, (Ports.release devs n a port ty).2 = .err er) ∨
      (Ports.release devs n a port ty).2 = .panic := by
  unfold Ports.release
  dsimp only
  repeat' split
  all_goals first | exact .inl ⟨_, rfl⟩ | exact .inr (.inl ⟨_, rfl⟩) | exact .inr (.inr rfl)

theorem hret_ne (h : Option Errno) : hret h ≠ .panic := by cases h <;> simp [hret]

theorem sret_ne (h : HSend) : sret h ≠ .panic := by cases h <;> simp [sret]

theorem bindInner_ne (e : Env) (s : State) (k : Sock) (to : SA) (pre : Bool) (hb : Option Errno) :
    (bindInner e s k to pre hb).2.2 ≠ .panic := by
  unfold bindInner
  split
  · simp
  · split
    · simp
    · dsimp only
      split
      · exact hret_ne hb
      · have hk := reserve_kind e.devs (force s k).1.net to.1 to.2 k.ty k.reuse
        cases hx : Ports.reserve e.devs (force s k).1.net to.1 to.2 k.ty k.reuse with
        | mk n' r =>
          rw [hx] at hk
          cases r
          · exact hret_ne hb
          all_goals simp_all

theorem assignAddr_ne {e : Env} {s : State} {k : Sock} {v6 : Bool} : assignAddr e s k v6 ≠ .inr () := by
  unfold assignAddr
  split
  · simp
  · have hk := reserve_kind e.devs s.net (wild v6) 0 k.ty false
    cases hx : Ports.reserve e.devs s.net (wild v6) 0 k.ty false with
    | mk n' r =>
      rw [hx] at hk
      cases r <;> simp_all

theorem implicitBind_ne {e : Env} {s : State} {k : Sock} {v6 : Bool} {hb : Option Errno} {r : Ret} {b : Bool}
    (h : (implicitBind e s k v6 hb).2.2 = some (r, b)) : r ≠ .panic := by
  unfold implicitBind at h
  split at h
  · simp at h
  · split at h
    · rename_i hx; exact absurd hx assignAddr_ne
    · simp at h; rw [← h.1]; simp
    · rename_i s' a _
      have := bindInner_ne e s' k a true hb
      dsimp only at h
      split at h
      · simp at h
      · simp at h; rw [← h.1]; exact this

theorem implicitBind_some {e : Env} {s : State} {k : Sock} {v6 : Bool} {hb : Option Errno}
    (h : (implicitBind e s k v6 hb).2.2 ≠ none) : k.laddr = none := by
  unfold implicitBind at h
  split at h
  · simp at h
  · assumption

theorem connectHost_ne {s : State} {d : Desc} {k : Sock} {to : SA} {hc : HConn} (hi : k.inner ≠ none) :
    (connectHost s d k to hc).2.ret ≠ .panic := by
  unfold connectHost
  split
  · rename_i h; exact absurd h hi
  · cases hc <;> simp [Out.r]

theorem giveBack_panic {e : Env} {s : State} {k : Sock} (h : (giveBack e s k).2.2 = some .panic) :
    ∃ a, k.laddr = some a ∧ (Ports.release e.devs s.net a.1 a.2 k.ty).2 = .panic := by
  unfold giveBack at h
  split at h
  · simp at h
  · rename_i a hl
    refine ⟨a, hl, ?_⟩
    split at h
    · simp at h
    · rename_i n' r hx
      simp at h
      rw [hx]; exact h

theorem dropIfLast_panic {e : Env} {s : State} {h : Nat} {r : Ret} (hr : r ≠ .panic) (hp : (dropIfLast e s h r).2.ret = .panic) :
    ∃ k a, s.socks h = some k ∧ k.laddr = some a ∧ (Ports.release e.devs s.net a.1 a.2 k.ty).2 = .panic := by
  unfold dropIfLast at hp
  split at hp
  · exact absurd hp hr
  · split at hp
    · exact absurd hp hr
    · rename_i k hk
      split at hp
      · exact absurd hp hr
      · dsimp only [Out.r] at hp
        split at hp
        · rename_i hg
          obtain ⟨a, h1, h2⟩ := giveBack_panic hg
          exact ⟨k, a, hk, h1, h2⟩
        · exact absurd hp hr

end Verif.InetSock
