import Verif.SemShmLemmas

/-!
# Every careful call keeps the invariant of C94
-/

namespace Verif.SemShm
open Verif.Shm (State Seg Att Sys)

theorem forkAll_rev {c ch : Nat} : ∀ {l : List (Nat × Nat)} {s s' : State}, Shm.forkAll c ch l s = some s' → s'.rev = s.rev
  | [], s, s', h => by cases h; rfl
  | u :: us, s, s', h => by
    simp only [Shm.forkAll] at h
    split at h
    · cases h
    · split at h
      · cases h
      · exact (forkAll_rev h).trans rfl

/-- A shared memory call: the shared memory part and the tables. -/
theorem shmCall_cases {chk : Bool} {s : St} {c : Nat} {rv : List (Nat × Nat)} {op : Shm.Op} {pick : Option Nat} :
    shmCall chk s c rv op pick = (s, .r .panic) ∨
    ∃ tab, tabAfter chk s c rv pick op = some tab ∧ (Shm.step s.sh c op).2 ≠ .r .panic ∧
      shmCall chk s c rv op pick = ({ s with sh := (Shm.step s.sh c op).1, tab := tab }, (Shm.step s.sh c op).2) := by
  unfold shmCall
  cases ht : tabAfter chk s c rv pick op with
  | none => exact .inl rfl
  | some tab =>
    cases hs : Shm.step s.sh c op with
    | mk sh out =>
      dsimp only
      split
      · exact .inl rfl
      · rename_i hne h2
        cases h2
        exact .inr ⟨tab, rfl, fun e => hne (by rw [e]), rfl⟩

/-- The clean calls of `Shm`. -/
theorem clean_of {s : St} {c : Nat} {op : Shm.Op} {pick : Option Nat} (hc : Careful s c (.shm op pick)) : Shm.Clean s.sh c op := by
  cases op with
  | «at» id addr host => exact hc.1
  | fork ch => exact hc
  | exec ch => exact hc
  | _ => exact trivial

theorem shm_step {sh : State} (hi : ∃ A, Shm.Inv ⟨sh, A⟩) {c : Nat} {op : Shm.Op} (hc : Shm.Clean sh c op) :
    ∃ A, Shm.Inv ⟨(Shm.step sh c op).1, A⟩ := by
  obtain ⟨A, hA⟩ := hi
  exact ⟨_, hA.step hc⟩

/-- Calls that change neither attachments nor semaphores. -/
theorem Inv.quiet {s : St} (hi : Inv s) {sh : State} (h1 : ∃ A, Shm.Inv ⟨sh, A⟩) (hr : sh.rev = s.sh.rev)
    (hseg : ∀ id g', sh.segs id = some g' → (∃ g, s.sh.segs id = some g ∧ g.size = g'.size) ∨ (s.sh.segs id = none ∧ 0 < g'.size)) :
    Inv { s with sh := sh } := by
  refine hi.mono id h1 hseg ?_ ?_ rfl (fun _ _ _ _ _ => rfl) (fun _ _ => rfl) hi.lt
  · rintro p a i ⟨rv, h, hm⟩; exact ⟨rv, (congrFun hr p).symm.trans h, hm⟩
  · intro c rv h; exact hi.nodup c rv ((congrFun hr c).symm.trans h)

/-! ## `shmdt` -/

theorem dropSems_spec {chk : Bool} {addr : Nat} {os : List Nat} {t : Nat → Option Nat} (ho : os = [] ∨ os = [0]) (ha : addr < w32) :
    dropSems chk addr os t = some (if os = [] then t else upd t addr none) := by
  rcases ho with rfl | rfl
  · rfl
  · have : add32 chk addr 0 = some addr := add32_lt (by omega)
    simp only [dropSems, this]
    rw [if_neg (List.cons_ne_nil 0 [])]

theorem Inv.dt {s : St} (hi : Inv s) {chk : Bool} {c addr : Nat} {rv : List (Nat × Nat)} (hrv : s.sh.rev c = some rv) :
    Inv (shmCall chk s c rv (.dt addr) none).1 ∧ (shmCall chk s c rv (.dt addr) none).2 ≠ .r .panic ∧
    ∀ p h id d, At (shmCall chk s c rv (.dt addr) none).1 p h id d → (shmCall chk s c rv (.dt addr) none).1.tab p h = s.tab p h := by
  obtain ⟨A, hA⟩ := hi.shm
  cases hf : Shm.findAddr addr rv with
  | none =>
    have h1 : Shm.step s.sh c (.dt addr) = (s.sh, .r (.err .EINVAL)) := by simp only [Shm.step, hrv, Shm.shmdt, hf]
    have : shmCall chk s c rv (.dt addr) none = (s, .r (.err .EINVAL)) := by
      simp only [shmCall, tabAfter, hf, h1]
    rw [this]; exact ⟨hi, (fun e => by cases e), fun _ _ _ _ _ => rfl⟩
  | some p =>
    obtain ⟨i, id⟩ := p
    obtain ⟨hm, g, g', h1, h2, -, h3⟩ := hA.detach hrv hf
    dsimp only at h1 h3
    obtain ⟨xs, ys, e1, e2⟩ := Shm.findAddr_spec hf
    have hmem : (addr, id) ∈ rv := by rw [e1]; simp
    have hatt : Attached s c addr id := ⟨rv, hrv, hmem⟩
    have hfit := hi.fit c addr id g hatt h1
    have hstep : Shm.step s.sh c (.dt addr) =
        (({ s.sh with rev := upd s.sh.rev c (some (Shm.swapRemove rv i)) } : State).putSeg id g', .r (.ok id)) := by
      simp only [Shm.step, hrv, Shm.shmdt, hf, h1, h2]
    have hdrop := dropSems_spec (chk := chk) (t := s.tab c) (hi.offs0 id) (show addr < w32 by omega)
    have hcall : shmCall chk s c rv (.dt addr) none = ({ s with
        sh := ({ s.sh with rev := upd s.sh.rev c (some (Shm.swapRemove rv i)) } : State).putSeg id g'
        tab := upd s.tab c (if s.offs id = [] then s.tab c else upd (s.tab c) addr none) }, .r (.ok id)) := by
      simp only [shmCall, tabAfter, hf, hdrop, hstep, Option.map_some]
    rw [hcall]
    have hperm : (Shm.swapRemove rv i).Perm (xs ++ ys) := by rw [e1, e2]; exact Shm.swapRemove_perm xs _ ys
    have hnd := hi.nodup c rv hrv
    have hnd' : (xs ++ ys).Nodup ∧ (addr, id) ∉ xs ++ ys := by
      rw [e1] at hnd
      have : ((addr, id) :: (xs ++ ys)).Nodup := (List.perm_middle.nodup_iff).1 hnd
      exact ⟨(List.nodup_cons.1 this).2, (List.nodup_cons.1 this).1⟩
    have hrev : ∀ p, (({ s.sh with rev := upd s.sh.rev c (some (Shm.swapRemove rv i)) } : State).putSeg id g').rev p =
        upd s.sh.rev c (some (Shm.swapRemove rv i)) p := fun p => by rw [Shm.putSeg_rev]
    have hat : ∀ p a i', Attached { s with
        sh := ({ s.sh with rev := upd s.sh.rev c (some (Shm.swapRemove rv i)) } : State).putSeg id g'
        tab := upd s.tab c (if s.offs id = [] then s.tab c else upd (s.tab c) addr none) } p a i' →
        Attached s p a i' ∧ (p = c → (a, i') ≠ (addr, id)) := by
      rintro p a i' ⟨l, hl, hml⟩
      dsimp only at hl
      rw [hrev, upd_apply] at hl
      split at hl
      · rename_i e; cases hl
        have hml' := hperm.mem_iff.1 hml
        refine ⟨⟨rv, by rw [e]; exact hrv, ?_⟩, fun _ e' => hnd'.2 (e' ▸ hml')⟩
        rw [e1]; rcases List.mem_append.1 hml' with h | h
        · exact List.mem_append_left _ h
        · exact List.mem_append_right _ (List.mem_cons_of_mem _ h)
      · rename_i e; exact ⟨⟨l, hl, hml⟩, fun e' => absurd e' e⟩
    have hseg : ∀ j gj, (({ s.sh with rev := upd s.sh.rev c (some (Shm.swapRemove rv i)) } : State).putSeg id g').segs j = some gj →
        (∃ g, s.sh.segs j = some g ∧ g.size = gj.size) ∨ (s.sh.segs j = none ∧ 0 < gj.size) := by
      intro j gj hj
      refine seg_back hA (c := c) (by rw [hrv]; exact fun h => nomatch h) (.dt addr) ?_
      rw [hstep]; exact hj
    have hkept : ∀ p h j d, At { s with
        sh := ({ s.sh with rev := upd s.sh.rev c (some (Shm.swapRemove rv i)) } : State).putSeg id g'
        tab := upd s.tab c (if s.offs id = [] then s.tab c else upd (s.tab c) addr none) } p h j d →
        upd s.tab c (if s.offs id = [] then s.tab c else upd (s.tab c) addr none) p h = s.tab p h := by
      rintro p h j d ⟨a, gj, ha, hg, hd, rfl⟩
      show upd s.tab c _ p (a + d) = s.tab p (a + d)
      obtain ⟨ha1, ha2⟩ := hat p a j ha
      by_cases hp : p = c
      · subst hp
        rw [upd_same]
        split
        · rfl
        · rw [upd_apply]
          split
          · rename_i e
            have hold : At s p addr j d := by
              obtain ⟨gs, hgs⟩ := hi.seg ha1
              rcases hseg j gj hg with ⟨g2, e2', e3⟩ | ⟨e2', -⟩
              · exact ⟨a, g2, ha1, e2', by rw [e3]; exact hd, e.symm⟩
              · rw [e2'] at hgs; cases hgs
            obtain ⟨e3, e4⟩ := hi.disj p addr j d id 0 hold (hi.start hatt)
            exact absurd (show (a, j) = (addr, id) by rw [e3, ← e, e4]; rfl) (ha2 rfl)
          · rfl
      · rw [upd_ne _ _ hp]
    refine ⟨?_, (fun e => by cases e), hkept⟩
    refine hi.mono _root_.id ⟨_, h3⟩ hseg (fun p a i' h => (hat p a i' h).1) ?_ rfl ?_ (fun _ _ => rfl) ?_
    · intro p l hl
      dsimp only at hl
      rw [hrev, upd_apply] at hl
      split at hl
      · cases hl; exact (hperm.nodup_iff).2 hnd'.1
      · exact hi.nodup p l hl
    · exact hkept
    · intro p h o ho
      dsimp only at ho
      rw [upd_apply] at ho
      split at ho
      · rename_i e
        split at ho
        · exact hi.lt c h o ho
        · rw [upd_apply] at ho
          split at ho
          · cases ho
          · exact hi.lt c h o ho
      · exact hi.lt p h o ho

/-! ## `shmat` -/

theorem Inv.attach {s : St} (hi : Inv s) {chk : Bool} {c id addr : Nat} {host : Bool} {pick : Option Nat} {rv : List (Nat × Nat)}
    (hrv : s.sh.rev c = some rv) (hc : Careful s c (.shm (.at id addr host) pick)) :
    Inv (shmCall chk s c rv (.at id addr host) pick).1 ∧ (shmCall chk s c rv (.at id addr host) pick).2 ≠ .r .panic ∧
    ∀ p h i d, At s p h i d → (shmCall chk s c rv (.at id addr host) pick).1.tab p h = s.tab p h := by
  obtain ⟨A, hA⟩ := hi.shm
  obtain ⟨rfl, hpn, hps, hfree, hsem⟩ := hc
  cases hg : s.sh.segs id with
  | none =>
    have h1 : Shm.step s.sh c (.at id addr true) = (s.sh, .r (.err .EINVAL)) := by simp only [Shm.step, hrv, Shm.shmat, hg]
    have : shmCall chk s c rv (.at id addr true) pick = (s, .r (.err .EINVAL)) := by
      simp only [shmCall, tabAfter, hg, h1, if_true]
    rw [this]; exact ⟨hi, (fun e => by cases e), fun _ _ _ _ _ => rfl⟩
  | some g =>
    obtain ⟨hfit, hfree⟩ := hfree g hg
    have hstep : Shm.step s.sh c (.at id addr true) = ({ s.sh with rev := upd s.sh.rev c (some (rv ++ [(addr, id)])), segs := upd s.sh.segs id (some (g.attach c)) },
      .r (.ok addr)) := by simp only [Shm.step, hrv, Shm.shmat, hg, if_true]
    have hpos := hi.pos id g hg
    /- what the tables are afterwards -/
    have key : ∃ tab, tabAfter chk s c rv pick (.at id addr true) = some tab ∧
        ((tab = s.tab ∧ ∀ p h d, At s p h id d → s.tab p h = none) ∨
          ∃ v, tab = upd s.tab c (upd (s.tab c) addr (some v)) ∧ s.offs id = [0] ∧ s.shared v = true ∧ v < s.next ∧
            ∀ p h, At s p h id 0 → s.tab p h = some v) := by
      simp only [tabAfter, hg]
      rw [if_neg (by exact fun h => nomatch h)]
      unfold attachSems
      rcases hi.offs0 id with ho | ho
      · rw [if_pos ho]
        refine ⟨_, rfl, .inl ⟨rfl, fun p h d hat => ?_⟩⟩
        cases hv : s.tab p h with
        | none => rfl
        | some o => have := (hi.inreg p h id d o hat hv).2.1; rw [ho] at this; cases this
      · rw [if_neg (by rw [ho]; exact List.cons_ne_nil _ _)]
        obtain ⟨p1, a1, hat1, hv1⟩ := hsem (by rw [ho]; exact List.cons_ne_nil _ _)
        obtain ⟨v, hv⟩ := Option.ne_none_iff_exists'.1 hv1
        have hall : ∀ p h, At s p h id 0 → s.tab p h = some v := fun p h hat => by
          rw [← hv]; exact hi.same p h p1 a1 id 0 hat (hi.start hat1)
        cases pick with
        | none => exact absurd hat1 (hpn rfl p1 a1)
        | some p =>
          obtain ⟨b, rvp, hrp, hbp⟩ := hps p rfl
          have hrp' : ∃ a0 l, addrsOf (if p = c then rv ++ [(addr, id)] else rvp) id = a0 :: l ∧ Attached s p a0 id := by
            have hne : addrsOf rvp id ≠ [] := List.ne_nil_of_mem (mem_addrsOf.2 hbp)
            obtain ⟨a0, l, e⟩ := List.exists_cons_of_ne_nil hne
            have ha0 : Attached s p a0 id := ⟨rvp, hrp, mem_addrsOf.1 (by rw [e]; exact List.mem_cons_self)⟩
            by_cases e' : p = c
            · rw [if_pos e']
              subst e'
              rw [hrv] at hrp; cases hrp
              refine ⟨a0, l ++ addrsOf [(addr, id)] id, ?_, ha0⟩
              unfold addrsOf at e ⊢
              rw [List.filter_append, List.map_append, e]; rfl
            · rw [if_neg e']; exact ⟨a0, l, e, ha0⟩
          obtain ⟨a0, l, e, ha0⟩ := hrp'
          have hif : (if p = c then some (rv ++ [(addr, id)]) else s.sh.rev p) = some (if p = c then rv ++ [(addr, id)] else rvp) := by
            split
            · rfl
            · exact hrp
          have hz0 : add32 chk a0 0 = some a0 := add32_lt (by have := hi.fit p a0 id g ha0 hg; omega)
          have hz1 : add32 chk addr 0 = some addr := add32_lt (by omega)
          refine ⟨upd s.tab c (upd (s.tab c) addr (some v)), ?_, .inr ⟨v, rfl, ho, ?_, ?_, hall⟩⟩
          · simp only [hif, e, ho, copySems, hz0, hz1, hall p a0 (hi.start ha0)]
          · exact (hi.inreg p1 a1 id 0 v (hi.start hat1) hv).2.2
          · exact hi.lt p1 a1 v hv
    obtain ⟨tab, ht, hcase⟩ := key
    have hcall : shmCall chk s c rv (.at id addr true) pick = ({ s with
        sh := { s.sh with rev := upd s.sh.rev c (some (rv ++ [(addr, id)])), segs := upd s.sh.segs id (some (g.attach c)) }, tab := tab }, .r (.ok addr)) := by
      simp only [shmCall, ht, hstep]
    rw [hcall]
    dsimp only
    generalize hs' : ({ s with
        sh := { s.sh with rev := upd s.sh.rev c (some (rv ++ [(addr, id)])), segs := upd s.sh.segs id (some (g.attach c)) }, tab := tab } : St) = s'
    have esh : s'.sh = { s.sh with rev := upd s.sh.rev c (some (rv ++ [(addr, id)])), segs := upd s.sh.segs id (some (g.attach c)) } := by rw [← hs']
    have etab : s'.tab = tab := by rw [← hs']
    have eoffs : s'.offs = s.offs := by rw [← hs']
    have eshared : s'.shared = s.shared := by rw [← hs']
    have enext : s'.next = s.next := by rw [← hs']
    have hattd : ∀ p a i, Attached s' p a i → Attached s p a i ∨ (p = c ∧ a = addr ∧ i = id) := by
      rintro p a i ⟨l, hl, hm⟩
      rw [esh] at hl; dsimp only at hl
      rw [upd_apply] at hl
      split at hl
      · rename_i e; cases hl
        rcases List.mem_append.1 hm with h | h
        · exact .inl ⟨rv, by rw [e]; exact hrv, h⟩
        · have := List.mem_singleton.1 h; cases this; exact .inr ⟨e, rfl, rfl⟩
      · exact .inl ⟨l, hl, hm⟩
    have hseg : ∀ j gj, s'.sh.segs j = some gj → ∃ g2, s.sh.segs j = some g2 ∧ g2.size = gj.size := by
      intro j gj hj
      rw [esh] at hj; dsimp only at hj
      rw [upd_apply] at hj
      split at hj
      · rename_i e; cases hj; exact ⟨g, by rw [e]; exact hg, rfl⟩
      · exact ⟨gj, hj, rfl⟩
    have hatd : ∀ p h i d, At s' p h i d → At s p h i d ∨ (p = c ∧ h = addr + d ∧ i = id ∧ d < g.size) := by
      rintro p h i d ⟨a, gj, ha, hgj, hd, rfl⟩
      obtain ⟨g2, e1, e2⟩ := hseg i gj hgj
      rcases hattd p a i ha with h1 | ⟨h1, h2, h3⟩
      · exact .inl ⟨a, g2, h1, e1, by rw [e2]; exact hd, rfl⟩
      · subst h3; rw [hg] at e1; cases e1
        exact .inr ⟨h1, by rw [h2], rfl, by rw [e2]; exact hd⟩
    have hnew : ∀ d i d', d < g.size → ¬ At s c (addr + d) i d' := fun d i d' hd => (hfree d hd).2 i d'
    have hold : ∀ p h i d, At s p h i d → s'.tab p h = s.tab p h := by
      intro p h i d hat
      rw [etab]
      rcases hcase with ⟨e, -⟩ | ⟨v, e, -⟩
      · rw [e]
      · rw [e, upd_apply]
        split
        · rename_i hp
          rw [upd_apply]
          split
          · rename_i hh
            subst hp; subst hh
            exact absurd hat (hnew 0 i d hpos)
          · rw [hp]
        · rfl
    have hnewtab : ∀ d, d < g.size → s'.tab c (addr + d) = none ∧ (∀ p h, At s p h id d → s.tab p h = none) ∨
        (d = 0 ∧ ∃ v, s'.tab c (addr + d) = some v ∧ s.offs id = [0] ∧ s.shared v = true ∧ ∀ p h, At s p h id d → s.tab p h = some v) := by
      intro d hd
      rcases hcase with ⟨e, h0⟩ | ⟨v, e, e2, e3, -, h0⟩
      · exact .inl ⟨by rw [etab, e]; exact (hfree d hd).1, fun p h => h0 p h d⟩
      · rcases Nat.eq_zero_or_pos d with rfl | hd0
        · exact .inr ⟨rfl, v, by rw [etab, e]; simp, e2, e3, h0⟩
        · refine .inl ⟨?_, fun p h hat => ?_⟩
          · rw [etab, e, upd_same, upd_ne _ _ (by omega)]; exact (hfree d hd).1
          · cases hv : s.tab p h with
            | none => rfl
            | some o => have := (hi.inreg p h id d o hat hv).1; omega
    refine ⟨⟨?_, ?_, ?_, ?_, ?_, ?_, ?_, ?_, ?_⟩, (fun e => by cases e), etab ▸ hold⟩
    · have := shm_step hi.shm (c := c) (op := .at id addr true) rfl
      rw [hstep] at this; rw [esh]; exact this
    · intro j gj hj
      obtain ⟨g2, e1, e2⟩ := hseg j gj hj
      rw [← e2]; exact hi.pos j g2 e1
    · intro p a i gj ha hj
      obtain ⟨g2, e1, e2⟩ := hseg i gj hj
      rcases hattd p a i ha with h1 | ⟨h1, h2, h3⟩
      · rw [← e2]; exact hi.fit p a i g2 h1 e1
      · subst h3; rw [hg] at e1; cases e1
        rw [← e2, h2]; exact hfit
    · intro p h i d i' d' h1 h2
      rcases hatd p h i d h1 with h1 | ⟨a1, a2, a3, a4⟩ <;> rcases hatd p h i' d' h2 with h2 | ⟨b1, b2, b3, b4⟩
      · exact hi.disj p h i d i' d' h1 h2
      · subst b1; subst b2; exact absurd h1 (hnew d' i d b4)
      · subst a1; subst a2; exact absurd h2 (hnew d i' d' a4)
      · exact ⟨a3.trans b3.symm, by omega⟩
    · intro p l hl
      rw [esh] at hl; dsimp only at hl
      rw [upd_apply] at hl
      split at hl
      · cases hl
        rw [List.nodup_append]
        refine ⟨hi.nodup c rv hrv, by simp, ?_⟩
        intro u hu w hw e
        have := List.mem_singleton.1 hw
        subst this; subst e
        exact hnew 0 id 0 hpos (hi.start ⟨rv, hrv, hu⟩)
      · exact hi.nodup p l hl
    · rw [eoffs]; exact hi.offs0
    · intro p h i d o hat ho
      rw [eoffs, eshared]
      rcases hatd p h i d hat with h1 | ⟨rfl, rfl, rfl, hd⟩
      · rw [hold p h i d h1] at ho
        exact hi.inreg p h i d o h1 ho
      · rcases hnewtab d hd with ⟨e, -⟩ | ⟨e0, v, e, e2, e3, -⟩
        · rw [e] at ho; cases ho
        · rw [e] at ho; cases ho; exact ⟨e0, e2, e3⟩
    · intro p h p' h' i d h1 h2
      rcases hatd p h i d h1 with h1 | ⟨rfl, rfl, rfl, hd⟩ <;> rcases hatd p' h' i d h2 with h2 | ⟨rfl, rfl, e3, hd'⟩
      · rw [hold p h i d h1, hold p' h' i d h2]; exact hi.same p h p' h' i d h1 h2
      · subst e3
        rw [hold p h i d h1]
        rcases hnewtab d hd' with ⟨e, h0⟩ | ⟨-, v, e, -, -, h0⟩
        · rw [e, h0 p h h1]
        · rw [e, h0 p h h1]
      · rw [hold p' h' i d h2]
        rcases hnewtab d hd with ⟨e, h0⟩ | ⟨-, v, e, -, -, h0⟩
        · rw [e, h0 p' h' h2]
        · rw [e, h0 p' h' h2]
      · rfl
    · intro p h o ho
      rw [enext]
      rw [etab] at ho
      rcases hcase with ⟨e, -⟩ | ⟨v, e, -, -, hv, -⟩
      · rw [e] at ho; exact hi.lt p h o ho
      · rw [e, upd_apply] at ho
        split at ho
        · rw [upd_apply] at ho
          split at ho
          · cases ho; exact hv
          · exact hi.lt c h o ho
        · exact hi.lt p h o ho

/-! ## The other shared memory calls, `fork`, `exec`, `exit` -/

theorem Inv.shmCall {s : St} (hi : Inv s) {chk : Bool} {c : Nat} {op : Shm.Op} {pick : Option Nat} {rv : List (Nat × Nat)}
    (hrv : s.sh.rev c = some rv) (hc : Careful s c (.shm op pick)) : Inv (shmCall chk s c rv op pick).1 := by
  have hne : s.sh.rev c ≠ none := by rw [hrv]; exact fun h => nomatch h
  obtain ⟨A, hA⟩ := hi.shm
  have hshm := shm_step hi.shm (clean_of hc)
  have hseg : ∀ id g', (Shm.step s.sh c op).1.segs id = some g' →
      (∃ g, s.sh.segs id = some g ∧ g.size = g'.size) ∨ (s.sh.segs id = none ∧ 0 < g'.size) := fun id g' h => seg_back hA hne op h
  by_cases hat : ∃ id addr host, op = .at id addr host
  · obtain ⟨id, addr, host, rfl⟩ := hat
    exact (hi.attach hrv hc).1
  by_cases hdt : ∃ addr, op = .dt addr
  · obtain ⟨addr, rfl⟩ := hdt
    exact (hi.dt (chk := chk) hrv (addr := addr)).1
  rcases shmCall_cases (chk := chk) (s := s) (c := c) (rv := rv) (op := op) (pick := pick) with e | ⟨tab, ht, hn, e⟩
  · rw [e]; exact hi
  rw [e]
  cases op with
  | «at» id addr host => exact absurd ⟨_, _, _, rfl⟩ hat
  | dt addr => exact absurd ⟨_, rfl⟩ hdt
  | get k sz f =>
    cases ht
    refine hi.quiet hshm ?_ hseg
    rw [Shm.step_get hne]
    rcases Shm.shmget_cases s.sh k sz f with ⟨e, -⟩ | ⟨-, -, -, -, -, e⟩
    · rw [e]
    · exact e
  | rmid id =>
    cases ht
    refine hi.quiet hshm ?_ hseg
    simp only [Shm.step, hrv, Shm.rmid]
    split
    · rfl
    · exact Shm.putSeg_rev _ _ _
  | stat id => cases ht; exact hi.quiet hshm (by simp only [Shm.step, hrv]) hseg
  | ctl id => cases ht; exact hi.quiet hshm (by simp only [Shm.step, hrv]) hseg
  | fork ch =>
    cases ht
    have hch : s.sh.rev ch = none := hc
    have hrev : (Shm.step s.sh c (.fork ch)).1.rev = upd s.sh.rev ch (some rv) ∨ (Shm.step s.sh c (.fork ch)).2 = .r .panic := by
      simp only [Shm.step, hrv]
      cases hf : Shm.forkAll c ch rv s.sh with
      | none => exact .inr rfl
      | some s' =>
        dsimp only
        split
        · exact .inr rfl
        · exact .inl (by dsimp only; rw [forkAll_rev hf])
    have hrev := hrev.resolve_right hn
    refine hi.mono (fun p => if p = ch then c else p) hshm hseg ?_ ?_ rfl ?_ (fun _ _ => rfl) ?_
    · rintro p a id ⟨l, hl, hm⟩
      dsimp only at hl ⊢
      rw [hrev, upd_apply] at hl
      split at hl
      · rename_i e; cases hl; rw [if_pos e]; exact ⟨rv, hrv, hm⟩
      · rename_i e; rw [if_neg e]; exact ⟨l, hl, hm⟩
    · intro p l hl
      dsimp only at hl
      rw [hrev, upd_apply] at hl
      split at hl
      · cases hl; exact hi.nodup c rv hrv
      · exact hi.nodup p l hl
    · intro p h id d _
      dsimp only
      rw [upd_apply]; split <;> rfl
    · intro p h o ho
      dsimp only at ho
      rw [upd_apply] at ho
      split at ho
      · exact hi.lt c h o ho
      · exact hi.lt p h o ho
  | exec ch =>
    cases ht
    obtain ⟨s', h1, -, h3, -⟩ := hA.exit hrv
    have hrev : (Shm.step s.sh c (.exec ch)).1.rev = upd (upd s.sh.rev c none) ch (some []) ∨ (Shm.step s.sh c (.exec ch)).2 = .r .panic := by
      simp only [Shm.step, hrv, h1]
      split
      · exact .inr rfl
      · exact .inl (by dsimp only; rw [h3])
    have hrev := hrev.resolve_right hn
    have hkeep : ∀ p l u, (Shm.step s.sh c (.exec ch)).1.rev p = some l → u ∈ l → s.sh.rev p = some l ∧ p ≠ c ∧ p ≠ ch := by
      intro p l u hl hu
      rw [hrev, upd_apply] at hl
      split at hl
      · cases hl; cases hu
      · rename_i e1
        rw [upd_apply] at hl
        split at hl
        · cases hl
        · rename_i e2; exact ⟨hl, e2, e1⟩
    refine hi.mono _root_.id hshm hseg ?_ ?_ rfl ?_ (fun _ _ => rfl) ?_
    · rintro p a id ⟨l, hl, hm⟩
      exact ⟨l, (hkeep p l _ hl hm).1, hm⟩
    · intro p l hl
      cases l with
      | nil => exact List.nodup_nil
      | cons u us => exact hi.nodup p _ (hkeep p _ u hl List.mem_cons_self).1
    · rintro p h id d ⟨a, g, ⟨l, hl, hm⟩, -⟩
      obtain ⟨-, n1, n2⟩ := hkeep p l _ hl hm
      dsimp only
      rw [upd_ne _ _ n2, upd_ne _ _ n1]; rfl
    · intro p h o ho
      dsimp only at ho
      rw [upd_apply] at ho
      split at ho
      · cases ho
      · rw [upd_apply] at ho
        split at ho
        · cases ho
        · exact hi.lt p h o ho
  | exit =>
    cases ht
    obtain ⟨s', h1, -, h3, -⟩ := hA.exit hrv
    have hrev : (Shm.step s.sh c .exit).1.rev = upd s.sh.rev c none := by
      simp only [Shm.step, hrv, h1, h3]
    have hkeep : ∀ p l, (Shm.step s.sh c .exit).1.rev p = some l → s.sh.rev p = some l ∧ p ≠ c := by
      intro p l hl
      rw [hrev, upd_apply] at hl
      split at hl
      · cases hl
      · rename_i e1; exact ⟨hl, e1⟩
    refine hi.mono _root_.id hshm hseg ?_ ?_ rfl ?_ (fun _ _ => rfl) ?_
    · rintro p a id ⟨l, hl, hm⟩
      exact ⟨l, (hkeep p l hl).1, hm⟩
    · intro p l hl; exact hi.nodup p l (hkeep p l hl).1
    · rintro p h id d ⟨a, g, ⟨l, hl, hm⟩, -⟩
      dsimp only
      rw [upd_ne _ _ (hkeep p l hl).2]; rfl
    · intro p h o ho
      dsimp only at ho
      rw [upd_apply] at ho
      split at ho
      · cases ho
      · exact hi.lt p h o ho

/-! ## `sem_init` and `sem_destroy` -/

/-- The tables change at most at one handle outside all segments of the caller. -/
theorem Inv.outside {s : St} (hi : Inv s) {c h : Nat} (hout : ∀ id d, ¬ At s c h id d) (v : Option Nat) {vals : Nat → Nat}
    {shared : Nat → Bool} {next : Nat} (h1 : ∀ o, o < s.next → shared o = s.shared o) (h2 : s.next ≤ next) (h3 : ∀ o, v = some o → o < next) :
    Inv { s with tab := upd s.tab c (upd (s.tab c) h v), vals := vals, shared := shared, next := next } := by
  refine hi.mono _root_.id hi.shm (fun id g hg => .inl ⟨g, hg, rfl⟩) (fun _ _ _ ha => ha) hi.nodup rfl ?_ h1 ?_
  · intro p k id d hat
    dsimp only
    rw [upd_apply]
    split
    · rename_i e
      rw [upd_apply]
      split
      · rename_i e'; subst e; subst e'; exact absurd hat (hout id d)
      · rw [e]; rfl
    · rfl
  · intro p k o ho
    dsimp only at ho ⊢
    rw [upd_apply] at ho
    split at ho
    · rw [upd_apply] at ho
      split at ho
      · exact h3 o ho
      · have := hi.lt c k o ho; omega
    · have := hi.lt p k o ho; omega

theorem addrs_lt {s : St} (hi : Inv s) {c : Nat} {rv : List (Nat × Nat)} (hrv : s.sh.rev c = some rv) {id : Nat} :
    ∀ a ∈ addrsOf rv id, a < w32 := by
  intro a ha
  have hat : Attached s c a id := ⟨rv, hrv, mem_addrsOf.1 ha⟩
  obtain ⟨g, hg⟩ := hi.seg hat
  have := hi.fit c a id g hat hg
  omega

/-- What is put at the first byte of a segment, in all processes. -/
theorem Inv.inside {s : St} (hi : Inv s) {c a id : Nat} {g : Seg} {rv : List (Nat × Nat)} (hrv : s.sh.rev c = some rv)
    (hat : Attached s c a id) (hg : s.sh.segs id = some g) (hsame : SameAddrs s c id) (w v : Option Nat) {vals : Nat → Nat}
    {shared : Nat → Bool} {next : Nat} {offs : Nat → List Nat} (h1 : ∀ o, o < s.next → shared o = s.shared o) (h2 : s.next ≤ next)
    (h3 : ∀ o, v = some o → o < next ∧ shared o = true ∧ offs id = [0]) (h4 : ∀ o, w = some o → o < next)
    (h5 : ∀ i, i ≠ id → offs i = s.offs i) (h6 : offs id = s.offs id ∨ offs id = [0]) :
    Inv { s with tab := putAll (upd s.tab c (upd (s.tab c) a w)) g (addrsOf rv id) v, vals := vals, shared := shared, next := next, offs := offs } ∧
    ∀ p k i d, At s p k i d → putAll (upd s.tab c (upd (s.tab c) a w)) g (addrsOf rv id) v p k = if i = id ∧ d = 0 then v else s.tab p k := by
  have hput : ∀ p k i d, At s p k i d →
      putAll (upd s.tab c (upd (s.tab c) a w)) g (addrsOf rv id) v p k = if i = id ∧ d = 0 then v else s.tab p k := by
    intro p k i d hk
    unfold putAll
    by_cases hid : i = id ∧ d = 0
    · obtain ⟨rfl, rfl⟩ := hid
      have hk0 := Inv.at0 hk
      rw [if_pos (show i = i ∧ (0 : Nat) = 0 from ⟨rfl, rfl⟩), if_pos]
      refine ⟨(hi.attc hg p).2 ⟨k, hk0⟩, ?_⟩
      obtain ⟨l, hl, hm⟩ := (hsame p k hk0 k).1 hk0
      rw [hrv] at hl; cases hl
      exact mem_addrsOf.2 hm
    · rw [if_neg hid, if_neg]
      · rw [upd_apply]
        split
        · rename_i e; subst e
          rw [upd_apply]
          split
          · rename_i e; subst e
            exact absurd (hi.disj p k i d id 0 hk (hi.start hat)) hid
          · rfl
        · rfl
      · rintro ⟨hp, hm⟩
        obtain ⟨b, hb⟩ := (hi.attc hg p).1 hp
        have : Attached s p k id := (hsame p b hb k).2 ⟨rv, hrv, mem_addrsOf.1 hm⟩
        exact hid (hi.disj p k i d id 0 hk (hi.start this))
  refine ⟨⟨hi.shm, hi.pos, hi.fit, hi.disj, hi.nodup, ?_, ?_, ?_, ?_⟩, hput⟩
  · intro i
    dsimp only
    by_cases e : i = id
    · subst e
      rcases h6 with h | h
      · rw [h]; exact hi.offs0 i
      · exact .inr h
    · rw [h5 i e]; exact hi.offs0 i
  · intro p k i d o hk ho
    dsimp only at ho ⊢
    rw [hput p k i d hk] at ho
    split at ho
    · rename_i e
      obtain ⟨-, e2, e3⟩ := h3 o ho
      exact ⟨e.2, by rw [e.1]; exact e3, e2⟩
    · obtain ⟨e1, e2, e3⟩ := hi.inreg p k i d o hk ho
      refine ⟨e1, ?_, by rw [h1 o (hi.lt _ _ _ ho)]; exact e3⟩
      by_cases e : i = id
      · subst e
        rcases h6 with h | h
        · rw [h]; exact e2
        · exact h
      · rw [h5 i e]; exact e2
  · intro p k p' k' i d hk hk'
    dsimp only
    rw [hput p k i d hk, hput p' k' i d hk']
    split
    · rfl
    · exact hi.same p k p' k' i d hk hk'
  · intro p k o ho
    dsimp only [putAll] at ho ⊢
    split at ho
    · exact (h3 o ho).1
    · rw [upd_apply] at ho
      split at ho
      · rw [upd_apply] at ho
        split at ho
        · exact h4 o ho
        · have := hi.lt c k o ho; omega
      · have := hi.lt p k o ho; omega

/-- The state after a semaphore was made at handle `h`, before it is told to others. -/
def made (s : St) (c h : Nat) (ps : Bool) (v : Nat) : St :=
  { s with tab := upd s.tab c (upd (s.tab c) h (some s.next)), vals := upd s.vals s.next v
           shared := upd s.shared s.next ps, next := s.next + 1 }

/-- What a careful `sem_init` does. -/
theorem init_cases {s : St} (hi : Inv s) {chk : Bool} {c h : Nat} {ps : Bool} {v : Nat} {rv : List (Nat × Nat)}
    (hrv : s.sh.rev c = some rv) (hc : Careful s c (.init h ps v)) :
    (semInit chk s c rv h ps v = (s, .err .EINVAL) ∧ v > Sem.semValueMax) ∨
    (semInit chk s c rv h ps v = (s, .err .EBADF) ∧ ¬ v > Sem.semValueMax ∧ s.tab c h ≠ none) ∨
    (s.tab c h = none ∧ ¬ v > Sem.semValueMax ∧ (∀ id d, ¬ At s c h id d) ∧ semInit chk s c rv h ps v = (made s c h ps v, .ok 0)) ∨
    ∃ id g, s.tab c h = none ∧ ¬ v > Sem.semValueMax ∧ ps = true ∧ Attached s c h id ∧ s.sh.segs id = some g ∧ SameAddrs s c id ∧
      semInit chk s c rv h ps v = ({ made s c h ps v with
        tab := putAll (made s c h ps v).tab g (addrsOf rv id) (some s.next)
        offs := upd s.offs id (addOff (s.offs id) 0) }, .ok 0) := by
  by_cases hv : v > Sem.semValueMax
  · exact .inl ⟨by unfold semInit; rw [if_pos hv], hv⟩
  cases ht : s.tab c h with
  | some o => exact .inr (.inl ⟨by unfold semInit; rw [if_neg hv, ht], hv, fun h => nomatch h⟩)
  | none =>
    have hfit : ∀ a id g, (a, id) ∈ rv → s.sh.segs id = some g → a + g.size < w32 := fun a id g hm hg => hi.fit c a id g ⟨rv, hrv, hm⟩ hg
    have hno : (∀ a id g, (a, id) ∈ rv → s.sh.segs id = some g → ¬ (a ≤ h ∧ h < a + g.size)) → ∀ id d, ¬ At s c h id d := by
      rintro h2 id d ⟨a, g, ⟨l, hl, hm⟩, hg, hd, rfl⟩
      rw [hrv] at hl; cases hl
      exact h2 a id g hm hg ⟨by omega, by omega⟩
    cases ps with
    | false =>
      refine .inr (.inr (.inl ⟨rfl, hv, fun id d hat => (by cases (hc id d hat).1), ?_⟩))
      unfold semInit; rw [if_neg hv, ht]; rfl
    | true =>
      rcases search_spec (chk := chk) (h := h) hfit with ⟨e, h2⟩ | ⟨a, id, g, e, hm, hg, h3, h4⟩
      · refine .inr (.inr (.inl ⟨rfl, hv, hno h2, ?_⟩))
        unfold semInit; rw [if_neg hv, ht]
        dsimp only
        rw [if_pos rfl, e]; rfl
      · have hat : At s c h id (h - a) := ⟨a, g, ⟨rv, hrv, hm⟩, hg, by omega, by omega⟩
        obtain ⟨-, hd, hsame⟩ := hc id _ hat
        have : h = a := by omega
        subst this
        refine .inr (.inr (.inr ⟨id, g, rfl, hv, rfl, ⟨rv, hrv, hm⟩, hg, hsame, ?_⟩))
        unfold semInit; rw [if_neg hv, ht]
        dsimp only
        rw [if_pos rfl, e]
        dsimp only
        rw [sub32_self]
        dsimp only
        rw [hg]
        dsimp only
        rw [places_zero chk _ (addrs_lt hi hrv)]; rfl

/-- What a careful `sem_destroy` does. -/
theorem destroy_cases {s : St} (hi : Inv s) {chk : Bool} {c h : Nat} {rv : List (Nat × Nat)}
    (hrv : s.sh.rev c = some rv) (hc : Careful s c (.destroy h)) :
    (semDestroy chk s c rv h = (s, .err .EINVAL) ∧ s.tab c h = none) ∨
    (s.tab c h ≠ none ∧ (∀ id d, ¬ At s c h id d) ∧ semDestroy chk s c rv h = ({ s with tab := upd s.tab c (upd (s.tab c) h none) }, .ok 0)) ∨
    ∃ id g, s.tab c h ≠ none ∧ Attached s c h id ∧ s.sh.segs id = some g ∧ SameAddrs s c id ∧
      semDestroy chk s c rv h = ({ s with tab := putAll (upd s.tab c (upd (s.tab c) h none)) g (addrsOf rv id) none }, .ok 0) := by
  cases ht : s.tab c h with
  | none => exact .inl ⟨by unfold semDestroy; rw [ht], rfl⟩
  | some o =>
    have hfit : ∀ a id g, (a, id) ∈ rv → s.sh.segs id = some g → a + g.size < w32 := fun a id g hm hg => hi.fit c a id g ⟨rv, hrv, hm⟩ hg
    have hno : (∀ a id g, (a, id) ∈ rv → s.sh.segs id = some g → ¬ (a ≤ h ∧ h < a + g.size)) → ∀ id d, ¬ At s c h id d := by
      rintro h2 id d ⟨a, g, ⟨l, hl, hm⟩, hg, hd, rfl⟩
      rw [hrv] at hl; cases hl
      exact h2 a id g hm hg ⟨by omega, by omega⟩
    cases hs : s.shared o with
    | false =>
      refine .inr (.inl ⟨(fun h => nomatch h), fun id d hat => ?_, ?_⟩)
      · have := (hi.inreg c h id d o hat ht).2.2; rw [hs] at this; cases this
      · unfold semDestroy; rw [ht]; dsimp only; rw [hs, if_neg Bool.false_ne_true]
    | true =>
      rcases search_spec (chk := chk) (h := h) hfit with ⟨e, h2⟩ | ⟨a, id, g, e, hm, hg, h3, h4⟩
      · refine .inr (.inl ⟨(fun h => nomatch h), hno h2, ?_⟩)
        unfold semDestroy; rw [ht]; dsimp only; rw [hs, if_pos rfl, e]
      · have hat : At s c h id (h - a) := ⟨a, g, ⟨rv, hrv, hm⟩, hg, by omega, by omega⟩
        have hd := (hi.inreg c h id _ o hat ht).1
        have hsame := hc id _ hat
        have : h = a := by omega
        subst this
        refine .inr (.inr ⟨id, g, (fun h => nomatch h), ⟨rv, hrv, hm⟩, hg, hsame, ?_⟩)
        unfold semDestroy; rw [ht]
        dsimp only
        rw [hs, if_pos rfl, e]
        dsimp only
        rw [sub32_self]
        dsimp only
        rw [hg]
        dsimp only
        rw [places_zero chk _ (addrs_lt hi hrv)]

theorem addOff_zero {l : List Nat} (h : l = [] ∨ l = [0]) : addOff l 0 = [0] := by
  rcases h with rfl | rfl <;> rfl

theorem Inv.init {s : St} (hi : Inv s) {chk : Bool} {c h : Nat} {ps : Bool} {v : Nat} {rv : List (Nat × Nat)}
    (hrv : s.sh.rev c = some rv) (hc : Careful s c (.init h ps v)) : Inv (semInit chk s c rv h ps v).1 := by
  have hsh : ∀ o, o < s.next → upd s.shared s.next ps o = s.shared o := fun o ho => upd_ne _ _ (by omega)
  rcases init_cases (chk := chk) hi hrv hc with ⟨e, -⟩ | ⟨e, -⟩ | ⟨-, -, hout, e⟩ | ⟨id, g, -, -, rfl, hat, hg, hsame, e⟩
  · rw [e]; exact hi
  · rw [e]; exact hi
  · rw [e]
    exact hi.outside hout (some s.next) hsh (by omega) (fun o ho => by cases ho; omega)
  · rw [e]
    have hoff : upd s.offs id (addOff (s.offs id) 0) id = [0] := by rw [upd_same]; exact addOff_zero (hi.offs0 id)
    exact (hi.inside hrv hat hg hsame (some s.next) (some s.next) hsh (Nat.le_succ _)
      (fun o ho => by cases ho; exact ⟨Nat.lt_succ_self _, upd_same _ _ _, hoff⟩) (fun o ho => by cases ho; exact Nat.lt_succ_self _)
      (fun i hne => upd_ne _ _ hne) (.inr hoff)).1

theorem Inv.destroy {s : St} (hi : Inv s) {chk : Bool} {c h : Nat} {rv : List (Nat × Nat)}
    (hrv : s.sh.rev c = some rv) (hc : Careful s c (.destroy h)) : Inv (semDestroy chk s c rv h).1 := by
  rcases destroy_cases (chk := chk) hi hrv hc with ⟨e, -⟩ | ⟨-, hout, e⟩ | ⟨id, g, -, hat, hg, hsame, e⟩
  · rw [e]; exact hi
  · rw [e]
    exact hi.outside hout none (fun _ _ => rfl) (Nat.le_refl _) (fun o ho => nomatch ho)
  · rw [e]
    exact (hi.inside hrv hat hg hsame none none (fun _ _ => rfl) (Nat.le_refl _)
      (fun o ho => nomatch ho) (fun o ho => nomatch ho) (fun i hne => rfl) (.inl rfl)).1

/-! ## All calls -/

theorem Inv.vals {s : St} (hi : Inv s) (vals : Nat → Nat) : Inv { s with vals := vals } :=
  ⟨hi.shm, hi.pos, hi.fit, hi.disj, hi.nodup, hi.offs0, hi.inreg, hi.same, hi.lt⟩

theorem Inv.take {s : St} (hi : Inv s) (c h : Nat) (r : Ret) : Inv (takeCall s c h r).1 := by
  unfold takeCall
  split
  · exact hi
  · split
    · exact hi.vals _
    · exact hi

theorem Inv.step {s : St} (hi : Inv s) {chk : Bool} {c : Nat} {op : Op} (hc : Careful s c op) : Inv (step chk s c op).1 := by
  unfold SemShm.step
  cases hrv : s.sh.rev c with
  | none => exact hi
  | some rv =>
    cases op with
    | shm op pick => exact hi.shmCall hrv hc
    | init h ps v => exact hi.init hrv hc
    | wait h => exact hi.take c h _
    | trywait h => exact hi.take c h _
    | timedwait h e => exact hi.take c h _
    | post h =>
      dsimp only
      split
      · exact hi
      · split
        · exact hi.vals _
        · exact hi
    | getvalue h =>
      dsimp only
      split <;> exact hi
    | destroy h => exact hi.destroy hrv hc

theorem Reach.inv {chk : Bool} {s : St} (h : Reach chk s) : Inv s := by
  induction h with
  | init => exact inv_init
  | step _ hc ih => exact ih.step hc

end Verif.SemShm
