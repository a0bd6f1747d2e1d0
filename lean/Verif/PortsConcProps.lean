import Verif.PortsConc

/-!
# Port calls by several threads: properties (C80)

The specification is that of `PortsProps`: `Hold` is a reservation granted and not yet released, `Overlap` and `Conflict`
say when two of them meet, and `Clean` is what the callers must respect for the table to work (C31, C32).  Here the
calls of any number of threads run interleaved.
-/

namespace Verif.PortsConc

open Verif.Ports

/-! ## The invariant -/

/-- What holds between two events. -/
structure CInv (devs : List Addr) (s : St) : Prop where
  inv : Inv devs s.sys
  own : ∀ t x, s.busy t = some x → x.addr ∈ devs ∧ s.lock x.ty = some t ∧ x.rest ≠ [] ∧
    ∀ q ∈ x.rest, ephStart ≤ q ∧ q ≤ ephEnd
  locked : ∀ ty t, s.lock ty = some t → ∃ x, s.busy t = some x ∧ x.ty = ty

theorem CInv.init (devs : List Addr) : CInv devs .init :=
  ⟨Inv.init devs, fun _ _ h => (by cases h), fun _ _ h => (by cases h)⟩

/-- The search of `t` ends without a change of the table. -/
theorem CInv.finish {devs : List Addr} {s : St} (h : CInv devs s) {t : Nat} {x : Search} (hx : s.busy t = some x)
    {sys : Sys} (hs : Inv devs sys) :
    CInv devs { sys := sys, lock := updK s.lock x.ty none, busy := updK s.busy t none } := by
  have hl := (h.own t x hx).2.1
  refine ⟨hs, fun u y hy => ?_, fun ty u hu => ?_⟩
  · by_cases e : u = t
    · subst e; simp only [updK_same] at hy; cases hy
    · simp only [updK_ne _ _ e] at hy
      obtain ⟨h1, h2, h3, h4⟩ := h.own u y hy
      refine ⟨h1, ?_, h3, h4⟩
      have : y.ty ≠ x.ty := by
        intro e'
        rw [e', hl] at h2
        exact e (Option.some.inj h2).symm
      simp only [updK_ne _ _ this]; exact h2
  · by_cases e : ty = x.ty
    · subst e; simp only [updK_same] at hu; cases hu
    · simp only [updK_ne _ _ e] at hu
      obtain ⟨y, h1, h2⟩ := h.locked ty u hu
      have : u ≠ t := by
        rintro rfl
        rw [hx] at h1
        cases h1
        exact e h2.symm
      exact ⟨y, by simp only [updK_ne _ _ this]; exact h1, h2⟩

/-- What a grant does to the table and the reservations. -/
theorem Inv.grant {devs : List Addr} {s : Sys} (hi : Inv devs s) {a : Addr} {q : Nat} {ty : PType} {reb : Bool} {l : Users}
    (ha : a ∈ devs) (hl : initPort devs (s.net.used ⟨swap16 q, ty⟩) a reb = some l) :
    Inv devs { net := { used := updK s.net.used ⟨swap16 q, ty⟩ (some l)
                        next := updK s.net.next ty (decNext (s.net.next ty)) }
               held := { addr := a, key := ⟨swap16 q, ty⟩, reb := reb } :: s.held } ∧
      ∀ h ∈ s.held, ¬ Overlap ⟨a, ⟨swap16 q, ty⟩, reb⟩ h := by
  obtain ⟨h1, h2⟩ := (hi.rep ⟨swap16 q, ty⟩).init ha hl
  refine ⟨⟨fun k => ?_, fun t => ?_, not_conflict_of (fun y hy hcf => h2 y hy hcf.1) hi.excl, mem_dev ha hi.dev⟩, h2⟩
  · by_cases hk : k = ⟨swap16 q, ty⟩
    · subst hk; simp only [updK_same]; exact h1
    · simp only [updK_ne _ _ hk]; exact (hi.rep k).cons_ne (Ne.symm hk)
  · by_cases ht : t = ty
    · subst ht; simp only [updK_same]; exact decNext_range (hi.next t).2
    · simp only [updK_ne _ _ ht]; exact hi.next t

theorem candidates_ne {n : Nat} (h1 : ephStart ≤ n) (h2 : n ≤ ephEnd) : candidates n ≠ [] :=
  List.ne_nil_of_mem ((candidates_mem h1 h2).2 ⟨h1, h2⟩)

theorem CInv.tryStep {devs : List Addr} {s : St} (h : CInv devs s) {t : Nat} {x : Search} (hx : s.busy t = some x) :
    CInv devs (tryStep devs s t x).1 := by
  obtain ⟨h1, h2, h3, h4⟩ := h.own t x hx
  unfold PortsConc.tryStep
  split
  · exact h.finish hx h.inv
  · rename_i q rest hr
    simp only
    cases hl : initPort devs (s.sys.net.used ⟨swap16 q, x.ty⟩) x.addr x.reb with
    | some l => exact h.finish hx (Inv.grant h.inv h1 hl).1
    | none =>
      simp only
      split
      · exact h.finish hx h.inv
      · rename_i hne
        refine ⟨h.inv, fun u y hy => ?_, fun ty u hu => ?_⟩
        · by_cases e : u = t
          · subst e
            simp only [updK_same] at hy
            cases hy
            exact ⟨h1, h2, hne, fun q' hq' => h4 q' (by rw [hr]; exact List.mem_cons_of_mem _ hq')⟩
          · simp only [updK_ne _ _ e] at hy
            exact h.own u y hy
        · obtain ⟨y, g1, g2⟩ := h.locked ty u hu
          by_cases e : u = t
          · subst e
            rw [hx] at g1; cases g1
            exact ⟨_, updK_same _ _ _, g2⟩
          · exact ⟨y, by simp only [updK_ne _ _ e]; exact g1, g2⟩

theorem CInv.act {devs : List Addr} {s s' : St} {e : Ev} {r : Option Ret} (h : CInv devs s) (hc : CleanEv s e)
    (ha : act devs s e = some (s', r)) : CInv devs s' := by
  cases e with
  | call t op =>
    simp only [PortsConc.act] at ha
    split at ha
    · cases ha
      refine ⟨?_, h.own, h.locked⟩
      cases op with
      | reserve a p ty reb => exact h.inv.step_reserve hc
      | release a p ty => exact h.inv.step_release hc
    · cases ha
  | start t a ty reb =>
    simp only [PortsConc.act] at ha
    split at ha
    · rename_i hb
      split at ha
      · cases ha; exact h
      · rename_i hd
        have hdev : a ∈ devs := by simpa using hd
        split at ha
        · rename_i hl
          cases ha
          refine ⟨h.inv, fun u y hy => ?_, fun ty' u hu => ?_⟩
          · by_cases e : u = t
            · subst e
              simp only [updK_same] at hy
              cases hy
              have hn := h.inv.next ty
              exact ⟨hdev, by simp only [updK_same], candidates_ne hn.1 hn.2, fun q hq => (candidates_mem hn.1 hn.2).1 hq⟩
            · simp only [updK_ne _ _ e] at hy
              obtain ⟨g1, g2, g3⟩ := h.own u y hy
              refine ⟨g1, ?_, g3⟩
              have : y.ty ≠ ty := by
                intro e'
                rw [e', hl] at g2
                cases g2
              simp only [updK_ne _ _ this]; exact g2
          · by_cases e : ty' = ty
            · subst e
              simp only [updK_same] at hu
              cases hu
              exact ⟨_, updK_same _ _ _, rfl⟩
            · simp only [updK_ne _ _ e] at hu
              obtain ⟨y, g1, g2⟩ := h.locked ty' u hu
              have : u ≠ t := by
                rintro rfl
                rw [hb] at g1; cases g1
              exact ⟨y, by simp only [updK_ne _ _ this]; exact g1, g2⟩
        · cases ha
    · cases ha
  | tryNext t =>
    simp only [PortsConc.act] at ha
    cases hx : s.busy t with
    | none => rw [hx] at ha; cases ha
    | some x =>
      rw [hx] at ha
      simp only [Option.some.injEq] at ha
      have := h.tryStep hx
      rw [ha] at this
      exact this

theorem Path.inv {devs : List Addr} {s s' : St} {es : List (St × Ev × Option Ret)} (hp : Path devs s es s')
    (h : CInv devs s) : CInv devs s' := by
  induction hp with
  | nil => exact h
  | snoc _ hc ha ih => exact CInv.act ih hc ha

theorem Path.trans {devs : List Addr} {s s1 s2 : St} {es es' : List (St × Ev × Option Ret)} (h1 : Path devs s es s1)
    (h2 : Path devs s1 es' s2) : Path devs s (es ++ es') s2 := by
  induction h2 with
  | nil => simpa using h1
  | snoc _ hc ha ih => rw [← List.append_assoc]; exact .snoc ih hc ha

/-! ## C80: one owner, whatever the schedule -/

/-- **C80, partial.**  After any interleaving of clean calls no two reservations that are held conflict. -/
theorem conc_exclusive_partial {devs : List Addr} {s : St} {es : List (St × Ev × Option Ret)} (hp : Path devs .init es s) :
    s.sys.held.Pairwise (fun a b => ¬ Conflict a b) :=
  (hp.inv (CInv.init devs)).inv.excl

/-- **C80, partial.**  Whatever ran since the search began: a port given to a search is one of the range, at that moment
nobody holds it for an overlapping address, and from then on the caller holds it. -/
theorem conc_granted_partial {devs : List Addr} {s s' : St} {es : List (St × Ev × Option Ret)} (hp : Path devs .init es s)
    {t : Nat} {r : Int} (ha : act devs s (.tryNext t) = some (s', some (.ok r))) :
    ∃ x q, s.busy t = some x ∧ ephStart ≤ q ∧ q ≤ ephEnd ∧ r = swap16 q ∧
      (∀ h ∈ s.sys.held, ¬ Overlap ⟨x.addr, ⟨swap16 q, x.ty⟩, x.reb⟩ h) ∧
      s'.sys.held = ⟨x.addr, ⟨swap16 q, x.ty⟩, x.reb⟩ :: s.sys.held ∧ s'.busy t = none := by
  have hi := hp.inv (CInv.init devs)
  simp only [PortsConc.act] at ha
  cases hx : s.busy t with
  | none => rw [hx] at ha; cases ha
  | some x =>
    rw [hx] at ha
    obtain ⟨h1, h2, h3, h4⟩ := hi.own t x hx
    simp only [Option.some.injEq] at ha
    unfold tryStep at ha
    split at ha
    · cases ha
    · rename_i q rest hr
      simp only at ha
      cases hl : initPort devs (s.sys.net.used ⟨swap16 q, x.ty⟩) x.addr x.reb with
      | some l =>
        rw [hl] at ha
        simp only [Prod.mk.injEq, Option.some.injEq, Ret.ok.injEq] at ha
        obtain ⟨rfl, rfl⟩ := ha
        have hq := h4 q (by rw [hr]; simp)
        exact ⟨x, q, rfl, hq.1, hq.2, rfl, (Inv.grant hi.inv h1 hl).2, rfl, by simp only [updK_same]⟩
      | none =>
        rw [hl] at ha
        simp only at ha
        split at ha
        · cases ha
        · cases ha

/-- The candidates a search has left, and those it has seen taken. -/
theorem Path.seen {devs : List Addr} {s1 s2 : St} {es : List (St × Ev × Option Ret)} (hp : Path devs s1 es s2)
    (hi : CInv devs s1) {t : Nat} {a : Addr} {ty : PType} {reb : Bool} {cs : List Nat}
    (hb : s1.busy t = some ⟨a, ty, reb, cs⟩) (hq : ∀ e ∈ es, e.2.1.thread = t → e.2.2 = none) :
    ∃ rest, s2.busy t = some ⟨a, ty, reb, rest⟩ ∧
      (es.countP (fun e => e.2.1.thread = t)) + rest.length = cs.length ∧
      ∀ q ∈ cs, q ∈ rest ∨ ∃ e ∈ es, ∃ h ∈ e.1.sys.held, Overlap ⟨a, ⟨swap16 q, ty⟩, reb⟩ h := by
  induction hp with
  | nil => exact ⟨cs, hb, by simp, fun q h => .inl h⟩
  | @snoc es sm e s2 r hp hc ha ih =>
    obtain ⟨rest, h1, h2, h3⟩ := ih (fun e he => hq e (List.mem_append_left _ he))
    have him := hp.inv hi
    have old : ∀ q ∈ cs, q ∈ rest ∨ ∃ e' ∈ es ++ [(sm, e, r)], ∃ h ∈ e'.1.sys.held, Overlap ⟨a, ⟨swap16 q, ty⟩, reb⟩ h := by
      intro q hqc
      rcases h3 q hqc with g | ⟨e', g1, g2⟩
      · exact .inl g
      · exact .inr ⟨e', List.mem_append_left _ g1, g2⟩
    have hr : e.thread = t → r = none := fun ht => hq (sm, e, r) (by simp) ht
    have other : e.thread ≠ t → s2.busy t = sm.busy t → _ := fun g1 g2 =>
      (⟨rest, by rw [g2, h1], by simpa [List.countP_append, g1] using h2, old⟩ :
        ∃ rest, s2.busy t = some ⟨a, ty, reb, rest⟩ ∧
          ((es ++ [(sm, e, r)]).countP (fun e => e.2.1.thread = t)) + rest.length = cs.length ∧
          ∀ q ∈ cs, q ∈ rest ∨ ∃ e' ∈ es ++ [(sm, e, r)], ∃ h ∈ e'.1.sys.held, Overlap ⟨a, ⟨swap16 q, ty⟩, reb⟩ h)
    cases e with
    | call u op =>
      simp only [PortsConc.act] at ha
      split at ha
      · rename_i hu
        cases ha
        refine other (fun g => ?_) rfl
        simp only [Ev.thread] at g
        rw [g, h1] at hu
        cases hu.1
      · cases ha
    | start u a' ty' reb' =>
      simp only [PortsConc.act] at ha
      split at ha
      · rename_i hu
        have hne : u ≠ t := by rintro rfl; rw [h1] at hu; cases hu
        split at ha
        · cases ha; exact other hne rfl
        · split at ha
          · cases ha
            exact other hne (by simp only [updK_ne _ _ (Ne.symm hne)])
          · cases ha
      · cases ha
    | tryNext u =>
      simp only [PortsConc.act] at ha
      cases hx : sm.busy u with
      | none => rw [hx] at ha; cases ha
      | some x =>
        rw [hx] at ha
        simp only [Option.some.injEq] at ha
        by_cases hne : u = t
        · subst hne
          rw [h1] at hx
          cases hx
          have hr' := hr rfl
          subst hr'
          unfold tryStep at ha
          simp only at ha
          cases hrest : rest with
          | nil => rw [hrest] at ha; cases ha
          | cons q rest' =>
            rw [hrest] at ha
            simp only at ha
            cases hl : initPort devs (sm.sys.net.used ⟨swap16 q, ty⟩) a reb with
            | some l => rw [hl] at ha; cases ha
            | none =>
              rw [hl] at ha
              simp only at ha
              split at ha
              · cases ha
              · cases ha
                refine ⟨rest', by simp only [updK_same], ?_, fun q' hq' => ?_⟩
                · have h1' : List.countP (fun e : St × Ev × Option Ret => decide (e.2.1.thread = u))
                      [(sm, Ev.tryNext u, none)] = 1 := by simp [Ev.thread]
                  rw [List.countP_append, h1']
                  rw [hrest] at h2
                  simp only [List.length_cons] at h2
                  omega
                · rcases old q' hq' with g | g
                  · rw [hrest] at g
                    rcases List.mem_cons.1 g with rfl | g
                    · obtain ⟨h, k1, k2⟩ := (him.inv.rep _).init_none hl
                      exact .inr ⟨(sm, .tryNext u, none), by simp, h, k1, k2⟩
                    · exact .inl g
                  · exact .inr g
        · refine other hne ?_
          unfold tryStep at ha
          split at ha
          · cases ha; simp only [updK_ne _ _ (Ne.symm hne)]
          · simp only at ha
            split at ha
            · cases ha; simp only [updK_ne _ _ (Ne.symm hne)]
            · split at ha
              · cases ha; simp only [updK_ne _ _ (Ne.symm hne)]
              · cases ha; simp only [updK_ne _ _ (Ne.symm hne)]

/-- How a search begins. -/
theorem act_start {devs : List Addr} {s s1 : St} {t : Nat} {a : Addr} {ty : PType} {reb : Bool}
    (h : act devs s (.start t a ty reb) = some (s1, none)) :
    s.busy t = none ∧ a ∈ devs ∧ s.lock ty = none ∧
      s1 = { s with lock := updK s.lock ty (some t)
                    busy := updK s.busy t (some ⟨a, ty, reb, candidates (s.sys.net.next ty)⟩) } := by
  simp only [PortsConc.act] at h
  split at h
  · rename_i hb
    split at h
    · cases h
    · rename_i hd
      split at h
      · rename_i hl
        cases h
        exact ⟨hb, by simpa using hd, hl, rfl⟩
      · cases h
  · cases h

theorem candidates_length {n : Nat} (h1 : ephStart ≤ n) (h2 : n ≤ ephEnd) : (candidates n).length = ephEnd + 1 - ephStart := by
  simp only [candidates, down, List.length_append, List.length_reverse, List.length_range']
  unfold ephStart ephEnd at *
  omega

/-- **C80, partial.**  Whatever runs meanwhile: when a search answers `EADDRINUSE`, then each port of the range was held for
an overlapping address at some moment between its beginning and its end.  (Not: all at one moment,
`conc_inuse_violated`.) -/
theorem conc_inuse_partial {devs : List Addr} {s0 s1 s2 s3 : St} {es0 es : List (St × Ev × Option Ret)} {t : Nat} {a : Addr}
    {ty : PType} {reb : Bool} (h0 : Path devs .init es0 s0) (hs : act devs s0 (.start t a ty reb) = some (s1, none))
    (hp : Path devs s1 es s2) (hq : ∀ e ∈ es, e.2.1.thread = t → e.2.2 = none)
    (he : act devs s2 (.tryNext t) = some (s3, some (.err .EADDRINUSE))) :
    ∀ q, ephStart ≤ q → q ≤ ephEnd →
      ∃ s, (s = s2 ∨ ∃ e ∈ es, e.1 = s) ∧ ∃ h ∈ s.sys.held, Overlap ⟨a, ⟨swap16 q, ty⟩, reb⟩ h := by
  have hi0 := h0.inv (CInv.init devs)
  have hi1 := CInv.act hi0 (by trivial) hs
  obtain ⟨-, -, -, rfl⟩ := act_start hs
  obtain ⟨rest, h1, -, h3⟩ := hp.seen (t := t) hi1 (updK_same _ _ _) hq
  have hi2 := hp.inv hi1
  intro q hq1 hq2
  have hn := hi0.inv.next ty
  rcases h3 q ((candidates_mem hn.1 hn.2).2 ⟨hq1, hq2⟩) with g | ⟨e, g1, g2⟩
  · simp only [PortsConc.act, h1, Option.some.injEq] at he
    unfold tryStep at he
    simp only at he
    cases hr : rest with
    | nil => rw [hr] at g; cases g
    | cons q' rest' =>
      rw [hr] at he
      simp only at he
      cases hl : initPort devs (s2.sys.net.used ⟨swap16 q', ty⟩) a reb with
      | some l => rw [hl] at he; cases he
      | none =>
        rw [hl] at he
        simp only at he
        split at he
        · rename_i hnil
          rw [hr, hnil] at g
          simp only [List.mem_singleton] at g
          subst g
          exact ⟨s2, .inl rfl, (hi2.inv.rep _).init_none hl⟩
        · cases he
  · exact ⟨e.1, .inr ⟨e, g1, rfl⟩, g2⟩

/-- **C80, partial.**  No schedule blocks the table: the thread that holds the lock of a type can always take its next step, and
it gives the lock back after at most as many steps of its own as the range has ports. -/
theorem conc_progress_partial {devs : List Addr} {s0 : St} {es0 : List (St × Ev × Option Ret)} (h0 : Path devs .init es0 s0) :
    (∀ ty t, s0.lock ty = some t → ∃ r, act devs s0 (.tryNext t) = some r) ∧
    (∀ t a ty reb s1 es s2, act devs s0 (.start t a ty reb) = some (s1, none) → Path devs s1 es s2 →
      (∀ e ∈ es, e.2.1.thread = t → e.2.2 = none) → es.countP (fun e => e.2.1.thread = t) < ephEnd + 1 - ephStart) := by
  have hi0 := h0.inv (CInv.init devs)
  refine ⟨fun ty t hl => ?_, fun t a ty reb s1 es s2 hs hp hq => ?_⟩
  · obtain ⟨x, hx, -⟩ := hi0.locked ty t hl
    simp only [PortsConc.act, hx]
    exact ⟨_, rfl⟩
  · have hi1 := CInv.act hi0 (by trivial) hs
    obtain ⟨-, -, -, rfl⟩ := act_start hs
    obtain ⟨rest, h1, h2, -⟩ := hp.seen (t := t) hi1 (updK_same _ _ _) hq
    have hne := ((hp.inv hi1).own t _ h1).2.2.1
    have hn := hi0.inv.next ty
    rw [candidates_length hn.1 hn.2] at h2
    have : 0 < rest.length := List.length_pos_iff.2 hne
    omega

/-- **C80.**  Two threads never search the ports of one type at once. -/
theorem conc_search_alone {devs : List Addr} {s : St} {es : List (St × Ev × Option Ret)} (hp : Path devs .init es s)
    {t u : Nat} {x y : Search} (hx : s.busy t = some x) (hy : s.busy u = some y) (h : x.ty = y.ty) : t = u := by
  have hi := hp.inv (CInv.init devs)
  have h1 := (hi.own t x hx).2.1
  have h2 := (hi.own u y hy).2.1
  rw [h, h2] at h1
  exact (Option.some.inj h1).symm

/-! ## A search that nobody disturbs -/

theorem updK_updK {κ α : Type} [DecidableEq κ] (f : κ → α) (i : κ) (v w : α) : updK (updK f i v) i w = updK f i w := by
  funext j
  by_cases h : j = i
  · subst h; simp only [updK_same]
  · simp only [updK_ne _ _ h]

/-- The tries of one thread with no other between them. -/
theorem solo_run {devs : List Addr} {t : Nat} {a : Addr} {ty : PType} {reb : Bool} (rest : List Nat) :
    ∀ s : St, s.busy t = some ⟨a, ty, reb, rest⟩ →
    ∃ es sm, Path devs s es sm ∧ (∀ e ∈ es, e.2.1 = .tryNext t ∧ e.2.2 = none ∧ e.1.sys = s.sys) ∧ sm.sys = s.sys ∧
      act devs sm (.tryNext t) = some (
        match rest.find? (fun q => (initPort devs (s.sys.net.used ⟨swap16 q, ty⟩) a reb).isSome) with
        | none => ({ sys := s.sys, lock := updK s.lock ty none, busy := updK s.busy t none }, some (.err .EADDRINUSE))
        | some q =>
          ({ sys := { net := { used := updK s.sys.net.used ⟨swap16 q, ty⟩ (initPort devs (s.sys.net.used ⟨swap16 q, ty⟩) a reb)
                               next := updK s.sys.net.next ty (decNext (s.sys.net.next ty)) }
                      held := ⟨a, ⟨swap16 q, ty⟩, reb⟩ :: s.sys.held }
             lock := updK s.lock ty none
             busy := updK s.busy t none }, some (.ok (swap16 q)))) := by
  induction rest with
  | nil =>
    intro s hb
    refine ⟨[], s, .nil, fun e he => (by cases he), rfl, ?_⟩
    simp only [PortsConc.act, hb, tryStep, List.find?_nil]
  | cons q rest ih =>
    intro s hb
    cases hl : initPort devs (s.sys.net.used ⟨swap16 q, ty⟩) a reb with
    | some l =>
      refine ⟨[], s, .nil, fun e he => (by cases he), rfl, ?_⟩
      simp only [PortsConc.act, hb, tryStep, hl, List.find?_cons, Option.isSome_some]
    | none =>
      by_cases hr : rest = []
      · subst hr
        refine ⟨[], s, .nil, fun e he => (by cases he), rfl, ?_⟩
        simp only [PortsConc.act, hb, tryStep, hl, List.find?_cons, Option.isSome_none, List.find?_nil, if_true]
      · have ha : act devs s (.tryNext t) = some ({ s with busy := updK s.busy t (some ⟨a, ty, reb, rest⟩) }, none) := by
          simp only [PortsConc.act, hb, tryStep, hl, if_neg hr]
        obtain ⟨es, sm, h1, h2, h3, h4⟩ := ih { s with busy := updK s.busy t (some ⟨a, ty, reb, rest⟩) } (updK_same _ _ _)
        refine ⟨[] ++ [(s, .tryNext t, none)] ++ es, sm, (Path.snoc .nil (by trivial) ha).trans h1, ?_, h3, ?_⟩
        · intro e he
          simp only [List.nil_append, List.singleton_append, List.mem_cons] at he
          rcases he with rfl | he
          · exact ⟨rfl, rfl, rfl⟩
          · exact h2 e he
        · rw [h4]
          simp only [List.find?_cons, hl, Option.isSome_none, updK_updK]

theorem reserve_zero {devs : List Addr} {n : Net} {a : Addr} {ty : PType} {reb : Bool} (hd : a ∈ devs) {cs : List Nat}
    (hcs : candidates (n.next ty) = cs) {o : Option Nat}
    (ho : cs.find? (fun q => (initPort devs (n.used ⟨swap16 q, ty⟩) a reb).isSome) = o) :
    (o = none → reserve devs n a 0 ty reb = (n, .err .EADDRINUSE)) ∧
    ∀ q, o = some q → reserve devs n a 0 ty reb =
      ({ used := updK n.used ⟨swap16 q, ty⟩ (initPort devs (n.used ⟨swap16 q, ty⟩) a reb)
         next := updK n.next ty (decNext (n.next ty)) }, .ok (swap16 q)) := by
  have he : reserve devs n a 0 ty reb = ephemeral devs n a ty reb := by
    unfold reserve; rw [if_neg (by simpa using hd), if_pos rfl]
  rw [he, ephemeral, if_neg (by simpa using hd), hcs, ho]
  constructor
  · rintro rfl; rfl
  · rintro q rfl; rfl

theorem undisturbed_aux {devs : List Addr} {s : St} {t : Nat} {a : Addr} {ty : PType} {reb : Bool} {cs : List Nat}
    (hb : s.busy t = none) (hl : s.lock ty = none)
    (hd : a ∈ devs) (hcs : candidates (s.sys.net.next ty) = cs) :
    ∃ es sm s', Path devs { s with lock := updK s.lock ty (some t), busy := updK s.busy t (some ⟨a, ty, reb, cs⟩) } es sm ∧
      (∀ e ∈ es, e.2.1 = .tryNext t ∧ e.2.2 = none) ∧
      act devs sm (.tryNext t) = some (s', some (reserve devs s.sys.net a 0 ty reb).2) ∧
      s'.sys = step devs s.sys (.reserve a 0 ty reb) ∧ s'.lock = s.lock ∧ s'.busy = s.busy := by
  obtain ⟨es, sm, h1, h2, -, h4⟩ := solo_run (devs := devs) (t := t) (a := a) (ty := ty) (reb := reb) cs
    { s with lock := updK s.lock ty (some t), busy := updK s.busy t (some ⟨a, ty, reb, cs⟩) } (updK_same _ _ _)
  have hlk : updK (updK s.lock ty (some t)) ty none = s.lock := by
    rw [updK_updK]
    funext j
    by_cases hj : j = ty
    · subst hj; rw [updK_same, hl]
    · rw [updK_ne _ _ hj]
  have hbk : ∀ x, updK (updK s.busy t x) t none = s.busy := by
    intro x
    rw [updK_updK]
    funext j
    by_cases hj : j = t
    · subst hj; rw [updK_same, hb]
    · rw [updK_ne _ _ hj]
  have h2' : ∀ e ∈ es, e.2.1 = .tryNext t ∧ e.2.2 = none := fun e he => ⟨(h2 e he).1, (h2 e he).2.1⟩
  simp only [step, call]
  have hres := fun o ho => reserve_zero (n := s.sys.net) (ty := ty) (reb := reb) hd hcs (o := o) ho
  generalize reserve devs s.sys.net a 0 ty reb = res at hres ⊢
  simp only at h4
  cases hf : cs.find? (fun q => (initPort devs (s.sys.net.used ⟨swap16 q, ty⟩) a reb).isSome) with
  | none =>
    rw [hf] at h4
    simp only at h4
    have hres := (hres _ hf).1 rfl
    subst hres
    exact ⟨es, sm, _, h1, h2', h4, rfl, hlk, hbk _⟩
  | some q =>
    rw [hf] at h4
    simp only at h4
    have hres := (hres _ hf).2 q rfl
    subst hres
    exact ⟨es, sm, _, h1, h2', h4, by simp only [heldAfter, Int.toNat_natCast], hlk, hbk _⟩

/-- **C80.**  A search that nobody disturbs is the call of `Ports.reserve`: same answer, same table, same reservations; and
the lock is free again. -/
theorem conc_undisturbed {devs : List Addr} {s s1 : St} {t : Nat} {a : Addr} {ty : PType} {reb : Bool}
    (h : act devs s (.start t a ty reb) = some (s1, none)) :
    ∃ es sm s', Path devs s1 es sm ∧ (∀ e ∈ es, e.2.1 = .tryNext t ∧ e.2.2 = none) ∧
      act devs sm (.tryNext t) = some (s', some (reserve devs s.sys.net a 0 ty reb).2) ∧
      s'.sys = step devs s.sys (.reserve a 0 ty reb) ∧ s'.lock = s.lock ∧ s'.busy = s.busy := by
  obtain ⟨hb, hd, hl, rfl⟩ := act_start h
  exact undisturbed_aux hb hl hd rfl

end Verif.PortsConc
