import Verif.PortsConcProps

/-!
# Port calls by several threads: a refusal with a free port, and examples (C80)
-/

namespace Verif.PortsConc

open Verif.Ports

/-! ## The range as a list -/

theorem down_mem {lo hi q : Nat} : q ∈ down lo hi ↔ lo ≤ q ∧ q ≤ hi := by
  simp only [down, List.mem_reverse, List.mem_range'_1]
  omega

theorem down_succ {lo hi : Nat} (h : lo ≤ hi + 1) : down lo (hi + 1) = (hi + 1) :: down lo hi := by
  simp only [down]
  have e : hi + 1 + 1 - lo = (hi + 1 - lo) + 1 := by omega
  rw [e, List.range'_concat, List.reverse_append]
  have e' : lo + 1 * (hi + 1 - lo) = hi + 1 := by omega
  rw [e']
  rfl

theorem down_nodup (lo hi : Nat) : (down lo hi).Nodup := by
  rw [down, List.Nodup, List.pairwise_reverse]
  exact (List.nodup_range' (step := 1)).imp (fun h => Ne.symm h)

theorem down_gt {lo hi : Nat} (h : hi < lo) : down lo hi = [] := by
  have e : hi + 1 - lo = 0 := by omega
  rw [down, e]
  rfl

/-! ## Filling the range -/

/-- A reservation of the loopback address that does not share. -/
def mine (q : Nat) : Hold := ⟨loop4, ⟨swap16 q, tcp4⟩, false⟩

/-- The entry of a port held so. -/
def entry : Option Users := some [(loop4, 0)]

/-- Thread 1 holds the ports of `l`, nobody is in a call, and nothing else was done. -/
structure Filled (l : List Nat) (s : St) : Prop where
  held : s.sys.held = l.map mine
  next : s.sys.net.next tcp4 = ephEnd
  used : ∀ q, q < 65536 → s.sys.net.used ⟨swap16 q, tcp4⟩ = if q ∈ l then entry else none

theorem swap16_pos {q : Nat} (h : ephStart ≤ q) : swap16 q ≠ 0 := by
  unfold swap16 ephStart at *
  omega

theorem range_lt {q : Nat} (h : q ≤ ephEnd) : q < 65536 := by
  unfold ephEnd at h; omega

theorem loop_dev : loop4 ∈ devices := by decide

/-- One more port. -/
theorem Filled.more {l : List Nat} {s : St} (h : Filled l s) {q : Nat} (h1 : ephStart ≤ q) (h2 : q ≤ ephEnd) (hn : q ∉ l)
    (hl : ∀ p ∈ l, p ≤ ephEnd) :
    CleanEv s (.call 1 (.reserve loop4 (swap16 q) tcp4 false)) ∧
    Filled (q :: l) { s with sys := step devices s.sys (.reserve loop4 (swap16 q) tcp4 false) } := by
  have hne : ∀ p ∈ l, (mine p).key ≠ ⟨swap16 q, tcp4⟩ := by
    intro p hp e
    have e' : swap16 p = swap16 q := congrArg Key.port e
    have := swap16_inj (range_lt (hl p hp)) (range_lt h2) e'
    exact hn (this ▸ hp)
  have hfree : ∀ x ∈ s.sys.held, x.key ≠ ⟨swap16 q, tcp4⟩ := by
    rw [h.held]
    intro x hx
    obtain ⟨p, hp, rfl⟩ := List.mem_map.1 hx
    exact hne p hp
  have hu : s.sys.net.used ⟨swap16 q, tcp4⟩ = none := by rw [h.used q (range_lt h2), if_neg hn]
  have hr : reserve devices s.sys.net loop4 (swap16 q) tcp4 false
      = ({ s.sys.net with used := updK s.sys.net.used ⟨swap16 q, tcp4⟩ entry }, .ok (swap16 q)) := by
    unfold reserve
    rw [if_neg (by decide), if_neg (swap16_pos h1), if_neg (by decide)]
    simp only [hu]
    rfl
  refine ⟨.inr (.inr ⟨fun x hx e => absurd e (hfree x hx), fun x hx e => absurd e (hfree x hx)⟩), ?_, ?_, ?_⟩
  · simp only [step, call, hr, heldAfter, Int.toNat_natCast, h.held, List.map_cons, mine]
  · simp only [step, call, hr]; exact h.next
  · intro p hp
    simp only [step, call, hr]
    by_cases e : p = q
    · subst e; simp only [updK_same, List.mem_cons, true_or, if_true]
    · have : (⟨swap16 p, tcp4⟩ : Key) ≠ ⟨swap16 q, tcp4⟩ := by
        intro e'
        exact e (swap16_inj hp (range_lt h2) (congrArg Key.port e'))
      rw [updK_ne _ _ this, h.used p hp]
      simp only [List.mem_cons, e, false_or]

theorem fill (l : List Nat) (hl : ∀ q ∈ l, ephStart ≤ q ∧ q ≤ ephEnd) (hn : l.Nodup) :
    ∃ es s, Path devices .init es s ∧ Filled l s ∧ (∀ t, s.busy t = none) ∧ ∀ ty, s.lock ty = none := by
  induction l with
  | nil =>
    exact ⟨[], .init, .nil, ⟨rfl, rfl, fun q _ => by simp [St.init, Sys.init, Net.init]⟩, fun _ => rfl, fun _ => rfl⟩
  | cons q l ih =>
    obtain ⟨es, s, h1, h2, h3, h4⟩ := ih (fun p hp => hl p (List.mem_cons_of_mem _ hp)) (List.nodup_cons.1 hn).2
    have hq := hl q (by simp)
    obtain ⟨g1, g2⟩ := h2.more hq.1 hq.2 (List.nodup_cons.1 hn).1 (fun p hp => (hl p (List.mem_cons_of_mem _ hp)).2)
    have ha : PortsConc.act devices s (.call 1 (.reserve loop4 (swap16 q) tcp4 false))
        = some ({ s with sys := step devices s.sys (.reserve loop4 (swap16 q) tcp4 false) },
                some (call devices s.sys.net (.reserve loop4 (swap16 q) tcp4 false)).2) := by
      simp only [PortsConc.act]
      rw [if_pos ⟨h3 1, by simp only [oneStep, bne_iff_ne]; exact swap16_pos hq.1⟩]
    exact ⟨_, _, h1.snoc g1 ha, g2, h3, h4⟩

/-! ## The refusal -/

theorem free_of {l : List Nat} {q : Nat} (hq : q ≤ ephEnd) (hl : ∀ p ∈ l, p ≤ ephEnd) (hn : q ∉ l) :
    ∀ h ∈ l.map mine, ¬ Overlap ⟨loop4, ⟨swap16 q, tcp4⟩, false⟩ h := by
  intro h hh ho
  obtain ⟨p, hp, rfl⟩ := List.mem_map.1 hh
  have e : swap16 q = swap16 p := congrArg Key.port ho.1
  have := swap16_inj (range_lt hq) (range_lt (hl p hp)) e
  exact hn (this ▸ hp)

/-- The highest port is given back and the lowest taken. -/
theorem Filled.trade {m : List Nat} {s : St} (h : Filled (ephEnd :: m) s) (hm : ephEnd ∉ m) :
    CleanEv s (.call 1 (.release loop4 (swap16 ephEnd) tcp4)) ∧
    Filled m { s with sys := step devices s.sys (.release loop4 (swap16 ephEnd) tcp4) } := by
  have hu : s.sys.net.used ⟨swap16 ephEnd, tcp4⟩ = some [(loop4, 0)] := by
    rw [h.used ephEnd (range_lt (Nat.le_refl _)), if_pos (by simp)]; rfl
  have hr : release devices s.sys.net loop4 (swap16 ephEnd) tcp4
      = ({ s.sys.net with used := updK s.sys.net.used ⟨swap16 ephEnd, tcp4⟩ none }, .ok 0) := by
    unfold release
    rw [if_neg (by decide)]
    simp only [hu]
    rw [if_neg (by decide)]
    have : findUser loop4 [(loop4, 0)] 0 = some (0, 0) := by decide
    rw [this]
    simp
  refine ⟨⟨mine ephEnd, by rw [h.held]; simp, rfl, rfl⟩, ?_, ?_, ?_⟩
  · simp only [step, call, hr, heldAfter, h.held, List.map_cons]
    rw [List.eraseP_cons_of_pos (by simp [mine])]
  · simp only [step, call, hr]; exact h.next
  · intro p hp
    simp only [step, call, hr]
    by_cases e : p = ephEnd
    · subst e; rw [updK_same, if_neg hm]
    · have : (⟨swap16 p, tcp4⟩ : Key) ≠ ⟨swap16 ephEnd, tcp4⟩ := by
        intro e'
        exact e (swap16_inj hp (range_lt (Nat.le_refl _)) (congrArg Key.port e'))
      rw [updK_ne _ _ this, h.used p hp]
      simp only [List.mem_cons, e, false_or]

/-- **C80 fails.**  A search answers `EADDRINUSE` although at every moment while it ran some port of the range was free for
its address: after it has tried the highest port, which is held, another thread gives that port back and takes the
lowest one, the only free one until then, before the search comes to it. -/
theorem conc_inuse_violated :
    ∃ es0 s0 s1 es s2 s3, Path devices .init es0 s0 ∧ act devices s0 (.start 0 loop4 tcp4 false) = some (s1, none) ∧
      Path devices s1 es s2 ∧ (∀ e ∈ es, e.2.1.thread = 0 → e.2.2 = none) ∧
      act devices s2 (.tryNext 0) = some (s3, some (.err .EADDRINUSE)) ∧
      ∀ s, (s = s2 ∨ ∃ e ∈ es, e.1 = s) →
        ∃ q, ephStart ≤ q ∧ q ≤ ephEnd ∧ ∀ h ∈ s.sys.held, ¬ Overlap ⟨loop4, ⟨swap16 q, tcp4⟩, false⟩ h := by
  -- the ports between the lowest and the highest
  have hlt : ephStart < ephEnd := by unfold ephStart ephEnd; omega
  have hmid : ∀ p, p ∈ down (ephStart + 1) (ephEnd - 1) → ephStart < p ∧ p < ephEnd := by
    intro p hp
    have := down_mem.1 hp
    omega
  generalize hm : down (ephStart + 1) (ephEnd - 1) = m at hmid
  have hnd : m.Nodup := hm ▸ down_nodup _ _
  have hE : ephEnd ∉ m := fun h => by have := hmid _ h; omega
  have hS : ephStart ∉ m := fun h => by have := hmid _ h; omega
  have hle : ∀ p ∈ m, p ≤ ephEnd := fun p hp => Nat.le_of_lt (hmid p hp).2
  obtain ⟨es0, s0, h1, h2, h3, h4⟩ := fill (ephEnd :: m)
    (fun q hq => by
      rcases List.mem_cons.1 hq with rfl | hq
      · exact ⟨Nat.le_of_lt hlt, Nat.le_refl _⟩
      · have := hmid q hq; omega)
    (List.nodup_cons.2 ⟨hE, hnd⟩)
  -- the candidates
  obtain ⟨rest, hc, hrest⟩ : ∃ rest, candidates ephEnd = ephEnd :: rest ∧ ∀ p ∈ rest, ephStart ≤ p ∧ p < ephEnd := by
    have e : candidates ephEnd = down ephStart ephEnd := by
      rw [candidates, down_gt (Nat.lt_succ_self _), List.append_nil]
    obtain ⟨n, hn⟩ : ∃ n, ephEnd = n + 1 := ⟨ephEnd - 1, by omega⟩
    refine ⟨down ephStart n, ?_, fun p hp => ?_⟩
    · rw [e, hn, down_succ (by omega)]
    · have := down_mem.1 hp; omega
  have hstart : act devices s0 (.start 0 loop4 tcp4 false)
      = some ({ s0 with lock := updK s0.lock tcp4 (some 0)
                        busy := updK s0.busy 0 (some ⟨loop4, tcp4, false, ephEnd :: rest⟩) }, none) := by
    simp only [PortsConc.act]
    rw [if_pos (h3 0), if_neg (by decide), if_pos (h4 _), h2.next, hc]
  generalize hs1 : ({ s0 with lock := updK s0.lock tcp4 (some 0)
                              busy := updK s0.busy 0 (some ⟨loop4, tcp4, false, ephEnd :: rest⟩) } : St) = s1 at hstart
  have hsys1 : s1.sys = s0.sys := by rw [← hs1]
  have hb1 : s1.busy 0 = some ⟨loop4, tcp4, false, ephEnd :: rest⟩ := by
    rw [← hs1]; simp only; rw [updK_same]
  have hb1' : s1.busy 1 = none := by
    rw [← hs1]; simp only; rw [updK_ne _ _ (by decide)]; exact h3 1
  have hF1 : Filled (ephEnd :: m) s1 := ⟨by rw [hsys1]; exact h2.held, by rw [hsys1]; exact h2.next, by rw [hsys1]; exact h2.used⟩
  have hrne : rest ≠ [] := by
    intro e
    have : ephStart ∈ candidates ephEnd := (candidates_mem (Nat.le_of_lt hlt) (Nat.le_refl _)).2 ⟨Nat.le_refl _, Nat.le_of_lt hlt⟩
    rw [hc, e] at this
    simp only [List.mem_singleton] at this
    omega
  -- the first try
  have htry : act devices s1 (.tryNext 0) = some ({ s1 with busy := updK s1.busy 0 (some ⟨loop4, tcp4, false, rest⟩) }, none) := by
    have hu : s1.sys.net.used ⟨swap16 ephEnd, tcp4⟩ = some [(loop4, 0)] := by
      rw [hF1.used ephEnd (range_lt (Nat.le_refl _)), if_pos (by simp)]; rfl
    have hi : initPort devices (s1.sys.net.used ⟨swap16 ephEnd, tcp4⟩) loop4 false = none := by
      rw [hu]; decide
    simp only [PortsConc.act, hb1, tryStep, hi, if_neg hrne]
  generalize hsa : ({ s1 with busy := updK s1.busy 0 (some ⟨loop4, tcp4, false, rest⟩) } : St) = sa at htry
  have hsysa : sa.sys = s1.sys := by rw [← hsa]
  have hba : sa.busy 0 = some ⟨loop4, tcp4, false, rest⟩ := by
    rw [← hsa]; simp only; rw [updK_same]
  have hba' : sa.busy 1 = none := by
    rw [← hsa]; simp only; rw [updK_ne _ _ (by decide)]; exact hb1'
  have hFa : Filled (ephEnd :: m) sa := ⟨by rw [hsysa]; exact hF1.held, by rw [hsysa]; exact hF1.next, by rw [hsysa]; exact hF1.used⟩
  -- the release
  obtain ⟨hcr, hFb⟩ := hFa.trade hE
  have hrel : act devices sa (.call 1 (.release loop4 (swap16 ephEnd) tcp4))
      = some ({ sa with sys := step devices sa.sys (.release loop4 (swap16 ephEnd) tcp4) },
              some (call devices sa.sys.net (.release loop4 (swap16 ephEnd) tcp4)).2) := by
    simp only [PortsConc.act]; rw [if_pos ⟨hba', rfl⟩]
  generalize hsb : ({ sa with sys := step devices sa.sys (.release loop4 (swap16 ephEnd) tcp4) } : St) = sb at hrel hFb
  have hbb : sb.busy = sa.busy := by rw [← hsb]
  -- the reservation
  obtain ⟨hcs, hFc⟩ := hFb.more (Nat.le_refl _) (Nat.le_of_lt hlt) hS hle
  have hres : act devices sb (.call 1 (.reserve loop4 (swap16 ephStart) tcp4 false))
      = some ({ sb with sys := step devices sb.sys (.reserve loop4 (swap16 ephStart) tcp4 false) },
              some (call devices sb.sys.net (.reserve loop4 (swap16 ephStart) tcp4 false)).2) := by
    simp only [PortsConc.act]
    rw [if_pos ⟨by rw [hbb]; exact hba', by simp only [oneStep, bne_iff_ne]; exact swap16_pos (Nat.le_refl _)⟩]
  generalize hsc : ({ sb with sys := step devices sb.sys (.reserve loop4 (swap16 ephStart) tcp4 false) } : St) = sc at hres hFc
  have hbc : sc.busy 0 = some ⟨loop4, tcp4, false, rest⟩ := by rw [← hsc]; simp only; rw [hbb]; exact hba
  -- the other tries
  obtain ⟨es, s2, g1, g2, g3, g4⟩ := solo_run (devs := devices) rest sc hbc
  have hnone : rest.find? (fun q => (initPort devices (sc.sys.net.used ⟨swap16 q, tcp4⟩) loop4 false).isSome) = none := by
    rw [List.find?_eq_none]
    intro q hq
    have hq' := hrest q hq
    have hmem : q ∈ ephStart :: m := by
      by_cases e : q = ephStart
      · exact e ▸ List.mem_cons_self
      · refine List.mem_cons_of_mem _ (hm ▸ down_mem.2 ⟨by omega, by omega⟩)
    have hu : sc.sys.net.used ⟨swap16 q, tcp4⟩ = some [(loop4, 0)] := by
      rw [hFc.used q (range_lt (Nat.le_of_lt hq'.2)), if_pos hmem]; rfl
    rw [hu]
    decide
  rw [hnone] at g4
  have hall : Path devices s1 (([] ++ [(s1, .tryNext 0, none)] ++ [(sa, .call 1 (.release loop4 (swap16 ephEnd) tcp4), _)] ++
      [(sb, .call 1 (.reserve loop4 (swap16 ephStart) tcp4 false), _)]) ++ es) s2 :=
    Path.trans (.snoc (.snoc (.snoc .nil (by trivial) htry) hcr hrel) hcs hres) g1
  have freeS : ∀ l, (l = ephEnd :: m ∨ l = m) → ∀ h ∈ l.map mine, ¬ Overlap ⟨loop4, ⟨swap16 ephStart, tcp4⟩, false⟩ h := by
    rintro l (rfl | rfl)
    · refine free_of (Nat.le_of_lt hlt) (fun p hp => ?_) ?_
      · rcases List.mem_cons.1 hp with rfl | hp
        · exact Nat.le_refl _
        · exact hle p hp
      · simp only [List.mem_cons, not_or]; exact ⟨by omega, hS⟩
    · exact free_of (Nat.le_of_lt hlt) hle hS
  have freeE : ∀ h ∈ (ephStart :: m).map mine, ¬ Overlap ⟨loop4, ⟨swap16 ephEnd, tcp4⟩, false⟩ h := by
    refine free_of (Nat.le_refl _) (fun p hp => ?_) ?_
    · rcases List.mem_cons.1 hp with rfl | hp
      · exact Nat.le_of_lt hlt
      · exact hle p hp
    · simp only [List.mem_cons, not_or]; exact ⟨by omega, hE⟩
  refine ⟨es0, s0, s1, _, s2, _, h1, hstart, hall, ?_, g4, ?_⟩
  · intro e he ht
    simp only [List.nil_append, List.cons_append, List.mem_cons] at he
    rcases he with rfl | rfl | rfl | he
    · rfl
    · cases ht
    · cases ht
    · exact (g2 e he).2.1
  · rintro s hs
    have hs : s.sys = s1.sys ∨ s.sys = sa.sys ∨ s.sys = sb.sys ∨ s.sys = sc.sys := by
      rcases hs with rfl | ⟨e, he, rfl⟩
      · exact .inr (.inr (.inr g3))
      · simp only [List.nil_append, List.cons_append, List.mem_cons] at he
        rcases he with rfl | rfl | rfl | he
        · exact .inl rfl
        · exact .inr (.inl rfl)
        · exact .inr (.inr (.inl rfl))
        · exact .inr (.inr (.inr (g2 e he).2.2))
    rcases hs with hs | hs | hs | hs <;> rw [hs]
    · rw [hF1.held]; exact ⟨ephStart, Nat.le_refl _, Nat.le_of_lt hlt, freeS _ (.inl rfl)⟩
    · rw [hFa.held]; exact ⟨ephStart, Nat.le_refl _, Nat.le_of_lt hlt, freeS _ (.inl rfl)⟩
    · rw [hFb.held]; exact ⟨ephStart, Nat.le_refl _, Nat.le_of_lt hlt, freeS _ (.inr rfl)⟩
    · rw [hFc.held]; exact ⟨ephEnd, Nat.le_of_lt hlt, Nat.le_refl _, freeE⟩

/-! ## Examples -/

/-- Two threads search TCP and UDP ports at once, a third takes the first TCP candidate between: the first search gets
the next one. -/
example :
    ((act devices .init (.start 0 loop4 tcp4 false)).bind fun s =>
      (act devices s.1 (.start 1 loop4 ⟨false, false⟩ false)).bind fun s =>
      (act devices s.1 (.call 2 (.reserve loop4 (swap16 60999) tcp4 false))).bind fun s =>
      (act devices s.1 (.tryNext 1)).bind fun s1 =>
      (act devices s1.1 (.tryNext 0)).bind fun s2 =>
      (act devices s2.1 (.tryNext 0)).map fun s3 => (s1.2, s2.2, s3.2))
    = some (some (.ok (swap16 60999)), none, some (.ok (swap16 60998))) := by
  decide +kernel

/-- A second search of the same type has to wait. -/
example : ((act devices .init (.start 0 loop4 tcp4 false)).bind fun s => act devices s.1 (.start 1 loop4 tcp4 false)).isNone
    = true := by
  decide +kernel

end Verif.PortsConc
