import Verif.SelectProps

/-!
# poll: C43
-/

set_option linter.unusedSimpArgs false

namespace Verif.Select

/-! ## Specification -/

/-- The event is among those the entry asks for. -/
def PollFd.wants (x : PollFd) (b : BitVec 16) : Prop := x.events &&& b ≠ 0
/-- The event is among those reported. -/
def PollFd.got (x : PollFd) (b : BitVec 16) : Prop := x.revents &&& b ≠ 0

/-- What an entry may report, given what the call saw: reading and writing only if asked for and possible, urgent data only if asked
for, NVAL only for a closed descriptor, and nothing else. -/
structure Honest (y : PollFd) (ps : List Pass) : Prop where
  inp : y.got pollIn → y.wants pollIn ∧ ∃ p ∈ ps, ∃ v, p.rd y.fd.toNat = some v ∧ CanRead p.host v
  out : y.got pollOut → y.wants pollOut ∧ ∃ p ∈ ps, ∃ v, p.wr y.fd.toNat = some v ∧ CanWrite v
  pri : y.got pollPri → y.wants pollPri
  nval : y.got pollNval → ∃ p ∈ ps, p.rd y.fd.toNat = none ∨ p.wr y.fd.toNat = none ∨ p.ex y.fd.toNat = none
  only : y.revents &&& (pollIn ||| pollOut ||| pollPri ||| pollNval) = y.revents

/-- The call looked at the entry at least once, and whenever it did, what the entry asks for was not possible. -/
def Missed (x : PollFd) (ps : List Pass) : Prop :=
  ∃ pre p post, ps = pre ++ p :: post ∧ ∀ q ∈ pre ++ [p], ∀ v,
    (x.wants pollIn → q.rd x.fd.toNat = some v → ¬ CanRead q.host v) ∧
    (x.wants pollOut → q.wr x.fd.toNat = some v → ¬ CanWrite v)

/-! ## One entry -/

theorem isEmpty_false {s : FdSet} {n : Nat} (hn : n ≤ 1024) (h : size n (some s) ≠ 0) : isEmpty s = false := by
  simp only [size] at h
  obtain ⟨d, hd⟩ := List.exists_mem_of_length_pos (Nat.pos_of_ne_zero h)
  have hd := List.mem_filter.1 hd
  have h1 : d < n := List.mem_range.1 hd.1
  simp only [isEmpty, List.all_eq_false]
  exact ⟨d, List.mem_range.2 (by omega), by simp [hd.2]⟩

theorem isEmpty_member {s : FdSet} (h : isEmpty s = false) : ∃ d, s d = true := by
  simp only [isEmpty, List.all_eq_false] at h
  obtain ⟨d, -, hd⟩ := h
  exact ⟨d, by simpa using hd⟩

theorem single_member {fd d : Nat} {b : Bool} (h : Member (some (single fd b)) d) : b = true ∧ d = fd := by
  obtain ⟨t, ht, hd⟩ := h
  cases ht
  simpa [single] using hd

theorem member_single (fd : Nat) : Member (some (single fd true)) fd := ⟨_, rfl, by simp [single]⟩

theorem sets_some {nfds : Int} {r w : FdSet} {e : Option FdSet} {ps : List Pass} :
    ∃ a b, (select nfds (some r) (some w) e ps).rd = some a ∧ (select nfds (some r) (some w) e ps).wr = some b := by
  by_cases h : ∀ k, (select nfds (some r) (some w) e ps).ret ≠ .ok k
  · obtain ⟨h1, h2⟩ := select_failed h
    exact ⟨r, w, h1, h2⟩
  · simp only [ne_eq, Classical.not_forall, Classical.not_not] at h
    obtain ⟨k, hk⟩ := h
    obtain ⟨_, _, _, a, _, _, _, _, _, h6, h7⟩ := select_ok hk
    exact ⟨a.rd, a.wr, h6, h7⟩

theorem pollOne_ok {x : PollFd} {ps : List Pass} {m : BitVec 16} {c : Nat} (h0 : 0 ≤ x.fd) (h : pollOne x ps = .ok (m, c)) :
    c = (if m ≠ 0 then 1 else 0) ∧ Honest { x with revents := m } ps ∧ (m = 0 → Missed x ps) := by
  unfold pollOne at h
  dsimp only at h
  split at h
  · cases h
  · obtain ⟨a, b, ha, hb⟩ := sets_some (nfds := x.fd + 1) (r := single x.fd.toNat (decide (x.events &&& pollIn ≠ 0)))
      (w := single x.fd.toNat (decide (x.events &&& pollOut ≠ 0)))
      (e := some (single x.fd.toNat (decide (x.events &&& pollPri ≠ 0)))) (ps := ps)
    generalize hs : select (x.fd + 1) (some (single x.fd.toNat (decide (x.events &&& pollIn ≠ 0))))
      (some (single x.fd.toNat (decide (x.events &&& pollOut ≠ 0)))) (some (single x.fd.toNat (decide (x.events &&& pollPri ≠ 0)))) ps
      = s at h ha hb
    rw [ha, hb] at h
    simp only [Option.getD_some] at h
    split at h
    · rename_i k hk
      split at h
      · rename_i hpos
        cases h
        subst hs
        have hcount := select_count hk
        have hbits := fun d => select_bits hk d
        have hrange := select_range (nfds := x.fd + 1) (by rw [hk]; simp)
        rw [ha, hb] at hcount
        have hne : isEmpty a = false ∨ isEmpty b = false := by
          rcases Nat.eq_zero_or_pos (size (x.fd + 1).toNat (some a)) with hz | hz
          · refine .inr (isEmpty_false (n := (x.fd + 1).toNat) (by omega) ?_)
            omega
          · exact .inl (isEmpty_false (n := (x.fd + 1).toNat) (by omega) (by omega))
        have hI : isEmpty a = false → x.wants pollIn ∧ ∃ p ∈ ps, ∃ v, p.rd x.fd.toNat = some v ∧ CanRead p.host v := by
          intro he
          obtain ⟨d, hd⟩ := isEmpty_member he
          obtain ⟨-, k2, k3⟩ := (hbits d).1 ⟨a, ha, hd⟩
          obtain ⟨e1, e2⟩ := single_member k2
          subst e2
          exact ⟨by simpa [PollFd.wants] using e1, k3⟩
        have hO : isEmpty b = false → x.wants pollOut ∧ ∃ p ∈ ps, ∃ v, p.wr x.fd.toNat = some v ∧ CanWrite v := by
          intro he
          obtain ⟨d, hd⟩ := isEmpty_member he
          obtain ⟨-, k2, k3⟩ := (hbits d).2 ⟨b, hb, hd⟩
          obtain ⟨e1, e2⟩ := single_member k2
          subst e2
          exact ⟨by simpa [PollFd.wants] using e1, k3⟩
        have key : ∀ i o p : Bool, (i = false ∨ o = false) →
            ((if i then (0 : BitVec 16) else pollIn) ||| (if o then 0 else pollOut) ||| (if p then pollPri else 0)) ≠ 0 ∧
            ((((if i then (0 : BitVec 16) else pollIn) ||| (if o then 0 else pollOut) ||| (if p then pollPri else 0)) &&& pollIn ≠ 0) → i = false) ∧
            ((((if i then (0 : BitVec 16) else pollIn) ||| (if o then 0 else pollOut) ||| (if p then pollPri else 0)) &&& pollOut ≠ 0) → o = false) ∧
            ((((if i then (0 : BitVec 16) else pollIn) ||| (if o then 0 else pollOut) ||| (if p then pollPri else 0)) &&& pollPri ≠ 0) → p = true) ∧
            (((if i then (0 : BitVec 16) else pollIn) ||| (if o then 0 else pollOut) ||| (if p then pollPri else 0)) &&& pollNval = 0) ∧
            (((if i then (0 : BitVec 16) else pollIn) ||| (if o then 0 else pollOut) ||| (if p then pollPri else 0)) &&&
              (pollIn ||| pollOut ||| pollPri ||| pollNval) =
              ((if i then (0 : BitVec 16) else pollIn) ||| (if o then 0 else pollOut) ||| (if p then pollPri else 0))) := by
          decide
        have K := key (isEmpty a) (isEmpty b) (decide (x.events &&& pollPri ≠ 0)) hne
        simp only [decide_eq_true_eq] at K
        obtain ⟨K1, K2, K3, K4, K5, K6⟩ := K
        refine ⟨by rw [if_pos K1], ⟨fun g => hI (K2 g), fun g => hO (K3 g), fun g => K4 g, fun g => absurd K5 g, K6⟩,
          fun hz => absurd hz K1⟩
      · rename_i hpos
        cases h
        subst hs
        have hk0 : k = 0 := by have := select_count hk; omega
        subst hk0
        have hrange := select_range (nfds := x.fd + 1) (by rw [hk]; simp)
        refine ⟨by simp, ⟨fun g => absurd g (by simp [PollFd.got]), fun g => absurd g (by simp [PollFd.got]),
          fun g => absurd g (by simp [PollFd.got]), fun g => absurd g (by simp [PollFd.got]), by simp⟩, fun _ => ?_⟩
        obtain ⟨pre, p, post, h1, -, -, h4⟩ := select_zero hk
        refine ⟨pre, p, post, h1, fun q hq v => ?_⟩
        have hidle := h4 q hq x.fd.toNat v (by omega)
        refine ⟨fun hw => hidle.1 ?_, fun hw => hidle.2 ?_⟩
        · rw [decide_eq_true (show x.events &&& pollIn ≠ 0 from hw)]; exact member_single _
        · rw [decide_eq_true (show x.events &&& pollOut ≠ 0 from hw)]; exact member_single _
    · rename_i hk
      cases h
      subst hs
      refine ⟨by decide, ⟨fun g => absurd g (by simp [PollFd.got]; decide), fun g => absurd g (by simp [PollFd.got]; decide),
        fun g => absurd g (by simp [PollFd.got]; decide), fun _ => ?_, by dsimp only; decide⟩,
        fun hz => absurd hz (by decide)⟩
      obtain ⟨p, hp, d, -, hc⟩ := select_ebadf hk
      refine ⟨p, hp, ?_⟩
      rcases hc with ⟨hm, hv⟩ | ⟨hm, hv⟩ | ⟨hm, hv⟩
      · rw [(single_member hm).2] at hv; exact .inl hv
      · rw [(single_member hm).2] at hv; exact .inr (.inl hv)
      · rw [(single_member hm).2] at hv; exact .inr (.inr hv)
    · cases h

/-- An entry that asks for something, of a descriptor below 1023 that is closed all along. -/
theorem pollOne_closed {x : PollFd} {p : Pass} {ps : List Pass} (h0 : 0 ≤ x.fd) (h1 : x.fd < 1023)
    (hw : x.wants pollIn ∨ x.wants pollOut ∨ x.wants pollPri)
    (hr : p.rd x.fd.toNat = none) (hwr : p.wr x.fd.toNat = none) (he : p.ex x.fd.toNat = none) (hh : p.host.fail = false) :
    pollOne x (p :: ps) = .ok (pollNval, 1) := by
  have hsel := select_closed_partial (nfds := x.fd + 1) (r := some (single x.fd.toNat (decide (x.events &&& pollIn ≠ 0))))
    (w := some (single x.fd.toNat (decide (x.events &&& pollOut ≠ 0))))
    (e := some (single x.fd.toNat (decide (x.events &&& pollPri ≠ 0)))) (p := p) (ps := ps) (by omega) (by omega)
    ⟨x.fd.toNat, by omega, by
      rcases hw with hw | hw | hw
      · left; rw [decide_eq_true (show x.events &&& pollIn ≠ 0 from hw)]; exact ⟨member_single _, hr⟩
      · right; left; rw [decide_eq_true (show x.events &&& pollOut ≠ 0 from hw)]; exact ⟨member_single _, hwr⟩
      · right; right; rw [decide_eq_true (show x.events &&& pollPri ≠ 0 from hw)]; exact ⟨member_single _, he⟩⟩
    (fun d v hm hv => by rw [(single_member hm).2, hr] at hv; cases hv)
    (fun d v hm hv => by rw [(single_member hm).2, hwr] at hv; cases hv) hh
  have : ¬ (x.fd ≥ fdSetMax ∧ (x.events &&& pollIn ≠ 0 ∨ x.events &&& pollOut ≠ 0 ∨ x.events &&& pollPri ≠ 0)) := by
    simp only [fdSetMax]; omega
  unfold pollOne
  dsimp only
  rw [if_neg this, hsel]

/-! ## One round -/

/-- What became of an entry in a round. -/
def Done (x y : PollFd) (ps : List Pass) : Prop :=
  (x.fd < 0 ∧ y = x) ∨ (0 ≤ x.fd ∧ ∃ m c, pollOne x ps = .ok (m, c) ∧ y = { x with revents := m })

/-- Number of entries with something reported. -/
def reports (ys : List PollFd) : Nat := (ys.filter fun y => y.revents ≠ 0).length

theorem pollPass_ok {sees : Nat → List Pass} {xs : List PollFd} : ∀ {i : Nat} {ys : List PollFd} {c : Nat},
    pollPass sees i xs = .ok (ys, c) → (∀ x ∈ xs, x.fd < 0 → x.revents = 0) →
    c = reports ys ∧ ys.length = xs.length ∧ ∀ j x, xs[j]? = some x → ∃ y, ys[j]? = some y ∧ Done x y (sees (i + j)) := by
  induction xs with
  | nil => intro i ys c h _; cases h; exact ⟨rfl, rfl, by simp⟩
  | cons x xs ih =>
    intro i ys c h hz
    simp only [pollPass] at h
    split at h
    · rename_i hneg
      split at h
      · cases h
      · rename_i zs c' hrec
        cases h
        obtain ⟨k1, k2, k3⟩ := ih hrec (fun z hz' => hz z (by simp [hz']))
        have : x.revents = 0 := hz x (by simp) hneg
        refine ⟨by rw [k1]; simp [reports, this], by simp [k2], ?_⟩
        rintro (_ | j) z hj
        · simp at hj; subst hj; exact ⟨x, by simp, .inl ⟨hneg, rfl⟩⟩
        · simp at hj
          obtain ⟨y, hy, hd⟩ := k3 j z hj
          refine ⟨y, by simpa using hy, ?_⟩
          rwa [show i + (j + 1) = i + 1 + j by omega]
    · rename_i hneg
      split at h
      · cases h
      · rename_i m c1 hone
        split at h
        · cases h
        · rename_i zs c' hrec
          cases h
          obtain ⟨k1, k2, k3⟩ := ih hrec (fun z hz' => hz z (by simp [hz']))
          have hc := (pollOne_ok (by omega) hone).1
          refine ⟨?_, by simp [k2], ?_⟩
          · rw [hc, k1]
            by_cases hm : m = 0
            · simp [reports, hm]
            · have hm' : ¬ m = 0#16 := hm
              rw [if_pos hm]
              simp only [reports, List.filter_cons]
              rw [if_pos (by simpa using hm')]
              simp [Nat.add_comm]
          · rintro (_ | j) z hj
            · simp at hj; subst hj; exact ⟨_, by simp only [List.getElem?_cons_zero], .inr ⟨by omega, m, c1, hone, rfl⟩⟩
            · simp at hj
              obtain ⟨y, hy, hd⟩ := k3 j z hj
              refine ⟨y, by simpa using hy, ?_⟩
              rwa [show i + (j + 1) = i + 1 + j by omega]

/-- Same descriptors and same requests, in the same order; what is ignored reports nothing. -/
def Same (xs ys : List PollFd) : Prop :=
  ys.length = xs.length ∧ (∀ (j : Nat) x, xs[j]? = some x → ∃ y, ys[j]? = some y ∧ y.fd = x.fd ∧ y.events = x.events) ∧
    ∀ y ∈ ys, y.fd < 0 → y.revents = 0

theorem same_refl {xs : List PollFd} (h : ∀ y ∈ xs, y.fd < 0 → y.revents = 0) : Same xs xs :=
  ⟨rfl, fun _ x hx => ⟨x, hx, rfl, rfl⟩, h⟩

theorem same_trans {xs ys zs : List PollFd} (h1 : Same xs ys) (h2 : Same ys zs) : Same xs zs := by
  refine ⟨h2.1.trans h1.1, fun j x hx => ?_, h2.2.2⟩
  obtain ⟨y, hy, a, b⟩ := h1.2.1 j x hx
  obtain ⟨z, hz, c, d⟩ := h2.2.1 j y hy
  exact ⟨z, hz, c.trans a, d.trans b⟩

theorem same_pass {sees : Nat → List Pass} {xs ys : List PollFd} {c : Nat}
    (h : pollPass sees 0 xs = .ok (ys, c)) (hz : ∀ x ∈ xs, x.fd < 0 → x.revents = 0) : Same xs ys := by
  obtain ⟨-, k2, k3⟩ := pollPass_ok h hz
  refine ⟨k2, fun j x hx => ?_, fun y hy hneg => ?_⟩
  · obtain ⟨y, hy, hd⟩ := k3 j x hx
    refine ⟨y, hy, ?_⟩
    rcases hd with ⟨-, rfl⟩ | ⟨-, m, c, -, rfl⟩ <;> exact ⟨rfl, rfl⟩
  · obtain ⟨j, hj⟩ := List.mem_iff_getElem?.1 hy
    have hlt : j < xs.length := by rw [← k2]; exact (List.getElem?_eq_some_iff.1 hj).1
    obtain ⟨y', hy', hd⟩ := k3 j xs[j] (List.getElem?_eq_getElem hlt)
    rw [hj] at hy'; cases hy'
    rcases hd with ⟨a, b⟩ | ⟨a, m, c, -, b⟩
    · rw [b]; exact hz _ (List.getElem_mem hlt) a
    · rw [b] at hneg; exact absurd hneg (by show ¬ (xs[j].fd < 0); omega)

theorem done_congr {x x' y : PollFd} {ps : List Pass} (hd : Done x y ps) (h1 : x.fd = x'.fd) (h2 : x.events = x'.events)
    (h3 : 0 ≤ x.fd) : Done x' y ps := by
  obtain ⟨fd, ev, re⟩ := x
  obtain ⟨fd', ev', re'⟩ := x'
  cases h1; cases h2
  rcases hd with ⟨a, -⟩ | ⟨a, m, c, hone, rfl⟩
  · dsimp only at a h3; omega
  · exact .inr ⟨a, m, c, hone, rfl⟩

/-- How a successful poll ends: the entries are those of one round, before which nothing was reported. -/
theorem pollLoop_ok : ∀ {rs : List Round} {xs ys : List PollFd} {k : Int}, pollLoop rs xs = (.ok k, ys) →
    (∀ x ∈ xs, x.fd < 0 → x.revents = 0) →
    ∃ pre r post, rs = pre ++ r :: post ∧ k = reports ys ∧ (k ≠ 0 ∨ r.late = true) ∧ (∀ q ∈ pre, q.late = false) ∧ Same xs ys ∧
      (∀ j x, xs[j]? = some x → 0 ≤ x.fd → ∃ y, ys[j]? = some y ∧ Done x y (r.sees j)) ∧
      ∀ q ∈ pre, ∀ (j : Nat) x, xs[j]? = some x → 0 ≤ x.fd → ∃ c, pollOne x (q.sees j) = .ok (0, c) := by
  intro rs
  induction rs with
  | nil => intro xs ys k h; cases h
  | cons r rs ih =>
    intro xs ys k h hz
    simp only [pollLoop] at h
    split at h
    · rename_i x hx
      have : x = .ok k := (Prod.mk.inj h).1
      subst this
      exfalso
      clear h ih
      revert hx
      suffices ∀ i xs, pollPass r.sees i xs ≠ .error (.ok k) from this 0 xs
      intro i xs
      induction xs generalizing i with
      | nil => simp [pollPass]
      | cons x xs ih =>
        simp only [pollPass]
        split
        · split
          · rename_i e he; intro hh; cases hh; exact ih _ he
          · simp
        · split
          · rename_i e he
            intro hh; cases hh
            unfold pollOne at he
            dsimp only at he
            repeat' split at he
            all_goals first | cases he | skip
            all_goals rename_i hno _ heq; simp_all
          · split
            · rename_i e he; intro hh; cases hh; exact ih _ he
            · simp
    · rename_i zs c hp
      obtain ⟨k1, k2, k3⟩ := pollPass_ok hp hz
      split at h
      · rename_i hend
        obtain ⟨e1, e2⟩ := Prod.mk.inj h
        cases e1; subst e2
        refine ⟨[], r, rs, rfl, by rw [k1], hend.imp (by omega) id, by simp, same_pass hp hz,
          fun j x hx _ => ?_, by simp⟩
        obtain ⟨y, hy, hd⟩ := k3 j x hx
        exact ⟨y, hy, by simpa using hd⟩
      · rename_i hend
        simp only [not_or, ne_eq, Classical.not_not, Bool.not_eq_true] at hend
        split at h
        · cases h
        · have hs := same_pass hp hz
          obtain ⟨pre, r', post, j1, j2, j3, j4, j5, j6, j7⟩ := ih h hs.2.2
          refine ⟨r :: pre, r', post, by rw [j1]; rfl, j2, j3, ?_, same_trans hs j5, ?_, ?_⟩
          · intro q hq
            rcases List.mem_cons.1 hq with rfl | hq
            · exact hend.2
            · exact j4 q hq
          · intro j x hx hnn
            obtain ⟨z, hz1, a, b⟩ := hs.2.1 j x hx
            obtain ⟨y, hy, hd⟩ := j6 j z hz1 (by omega)
            exact ⟨y, hy, done_congr hd a b (by omega)⟩
          · intro q hq j x hx hnn
            rcases List.mem_cons.1 hq with rfl | hq
            · obtain ⟨y, hy, hd⟩ := k3 j x hx
              rcases hd with ⟨a, -⟩ | ⟨a, m, c', hone, e⟩
              · omega
              · have hc0 : reports zs = 0 := by omega
                have hmem : y ∈ zs := List.mem_iff_getElem?.2 ⟨j, hy⟩
                have := List.length_eq_zero_iff.1 hc0
                have := List.filter_eq_nil_iff.1 this y hmem
                subst e
                have hm : m = 0 := by simpa using this
                subst hm
                exact ⟨c', by simpa using hone⟩
            · obtain ⟨z, hz1, a, b⟩ := hs.2.1 j x hx
              have := j7 q hq j z hz1 (by omega)
              obtain ⟨fd, ev, re⟩ := x
              obtain ⟨fd', ev', re'⟩ := z
              cases a; cases b
              exact this

/-! ## C43 -/

theorem poll_ok {rs : List Round} {xs ys : List PollFd} {k : Int} (h : poll xs rs = (.ok k, ys)) :
    ∃ pre r post, rs = pre ++ r :: post ∧ k = reports ys ∧ (k ≠ 0 ∨ r.late = true) ∧ (∀ q ∈ pre, q.late = false) ∧ Same xs ys ∧
      (∀ (j : Nat) x, xs[j]? = some x → 0 ≤ x.fd → ∃ y, ys[j]? = some y ∧ Done x y (r.sees j)) ∧
      ∀ q ∈ pre, ∀ (j : Nat) x, xs[j]? = some x → 0 ≤ x.fd → ∃ c, pollOne x (q.sees j) = .ok (0, c) := by
  have hz : ∀ x ∈ xs.map (fun x => { x with revents := 0 }), x.fd < 0 → x.revents = 0 := by
    intro x hx _
    obtain ⟨z, -, rfl⟩ := List.mem_map.1 hx
    rfl
  obtain ⟨pre, r, post, h1, h2, h3, h4, h5, h6, h7⟩ := pollLoop_ok h hz
  have get : ∀ (j : Nat) x, xs[j]? = some x → (xs.map (fun x => { x with revents := 0 }))[j]? = some { x with revents := 0 } := by
    intro j x hx; simp [hx]
  refine ⟨pre, r, post, h1, h2, h3, h4, ⟨by simpa using h5.1, ?_, h5.2.2⟩, ?_, ?_⟩
  · intro j x hx
    obtain ⟨y, hy, a, b⟩ := h5.2.1 j _ (get j x hx)
    exact ⟨y, hy, a, b⟩
  · intro j x hx hnn
    obtain ⟨y, hy, hd⟩ := h6 j _ (get j x hx) hnn
    exact ⟨y, hy, done_congr hd rfl rfl hnn⟩
  · intro q hq j x hx hnn
    obtain ⟨c, hc⟩ := h7 q hq j _ (get j x hx) hnn
    exact ⟨c, hc⟩

/-- C43.  A successful poll returns the number of entries that report something. -/
theorem poll_count {rs : List Round} {xs ys : List PollFd} {k : Int} (h : poll xs rs = (.ok k, ys)) :
    k = (ys.filter fun y => y.revents ≠ 0).length := by
  obtain ⟨_, _, _, _, h2, _⟩ := poll_ok h
  exact h2

/-- C43.  The entries keep their descriptors and requests, in order; negative descriptors report nothing. -/
theorem poll_entries {rs : List Round} {xs ys : List PollFd} {k : Int} (h : poll xs rs = (.ok k, ys)) :
    ys.map (fun y => (y.fd, y.events)) = xs.map (fun x => (x.fd, x.events)) ∧ ∀ y ∈ ys, y.fd < 0 → y.revents = 0 := by
  obtain ⟨_, _, _, _, _, _, _, h5, _⟩ := poll_ok h
  refine ⟨List.ext_getElem? fun j => ?_, h5.2.2⟩
  simp only [List.getElem?_map]
  by_cases hj : j < xs.length
  · obtain ⟨y, hy, a, b⟩ := h5.2.1 j xs[j] (List.getElem?_eq_getElem hj)
    rw [hy, List.getElem?_eq_getElem hj]
    simp [a, b]
  · rw [List.getElem?_eq_none (by rw [h5.1]; omega), List.getElem?_eq_none (by omega)]

/-- C43.  What an entry reports is asked for and was seen to be so, in one and the same round for all the entries; in it nothing that is not
reported was seen ready. -/
theorem poll_honest {rs : List Round} {xs ys : List PollFd} {k : Int} (h : poll xs rs = (.ok k, ys)) :
    ∃ r ∈ rs, ∀ (j : Nat) y, ys[j]? = some y → 0 ≤ y.fd → Honest y (r.sees j) ∧ (y.revents = 0 → Missed y (r.sees j)) := by
  obtain ⟨_, r, _, h1, _, _, _, h5, h6, _⟩ := poll_ok h
  refine ⟨r, by simp [h1], fun j y hy hnn => ?_⟩
  have hlt : j < xs.length := by rw [← h5.1]; exact (List.getElem?_eq_some_iff.1 hy).1
  obtain ⟨y', hy', a, b⟩ := h5.2.1 j xs[j] (List.getElem?_eq_getElem hlt)
  rw [hy] at hy'; cases hy'
  obtain ⟨y'', hy'', hd⟩ := h6 j xs[j] (List.getElem?_eq_getElem hlt) (by omega)
  rw [hy] at hy''; cases hy''
  rcases hd with ⟨c, -⟩ | ⟨c, m, n, hone, e⟩
  · omega
  · have K := pollOne_ok c hone
    rw [e]
    exact ⟨K.2.1, fun hm => K.2.2 hm⟩

/-- C43.  If poll returns 0, the time was up, and at no time the call looked was anything asked for possible. -/
theorem poll_zero {rs : List Round} {xs ys : List PollFd} (h : poll xs rs = (.ok 0, ys)) :
    ∃ pre r post, rs = pre ++ r :: post ∧ r.late = true ∧ (∀ q ∈ pre, q.late = false) ∧
      ∀ q ∈ pre ++ [r], ∀ (j : Nat) x, xs[j]? = some x → 0 ≤ x.fd → Missed x (q.sees j) := by
  obtain ⟨pre, r, post, h1, h2, h3, h4, h5, h6, h7⟩ := poll_ok h
  refine ⟨pre, r, post, h1, h3.resolve_left (by simp), h4, fun q hq j x hx hnn => ?_⟩
  rcases List.mem_append.1 hq with hq | hq
  · obtain ⟨c, hc⟩ := h7 q hq j x hx hnn
    exact (pollOne_ok hnn hc).2.2 rfl
  · rw [List.mem_singleton.1 hq]
    obtain ⟨y, hy, hd⟩ := h6 j x hx hnn
    rcases hd with ⟨c, -⟩ | ⟨c, m, n, hone, e⟩
    · omega
    · refine (pollOne_ok c hone).2.2 ?_
      have hz : reports ys = 0 := by omega
      have := List.length_eq_zero_iff.1 hz
      have := List.filter_eq_nil_iff.1 this y (List.mem_iff_getElem?.2 ⟨j, hy⟩)
      subst e
      simpa using this

/-- C43.  A closed descriptor gets NVAL, at once, if the entry asks for reading, writing or urgent data and the descriptor is below
1023 (the full statement, without these two conditions, is false: see the witnesses). -/
theorem poll_closed_partial {r : Round} {rs : List Round} {xs ys : List PollFd} {k : Int} (h : poll xs (r :: rs) = (.ok k, ys))
    {j : Nat} {x : PollFd} (hx : xs[j]? = some x) (h0 : 0 ≤ x.fd) (h1 : x.fd < 1023)
    (hw : x.wants pollIn ∨ x.wants pollOut ∨ x.wants pollPri)
    (hc : ∃ p ps, r.sees j = p :: ps ∧ p.rd x.fd.toNat = none ∧ p.wr x.fd.toNat = none ∧ p.ex x.fd.toNat = none ∧ p.host.fail = false) :
    ys[j]? = some { x with revents := pollNval } := by
  obtain ⟨p, ps, hs, c1, c2, c3, c4⟩ := hc
  have hone := pollOne_closed (ps := ps) h0 h1 hw c1 c2 c3 c4
  rw [← hs] at hone
  obtain ⟨pre, r', post, h1', h2, h3, h4, h5, h6, h7⟩ := poll_ok h
  have hpre : pre = [] := by
    cases pre with
    | nil => rfl
    | cons q pre =>
      exfalso
      cases h1'
      obtain ⟨c, hc⟩ := h7 r (by simp) j x hx h0
      rw [hone] at hc
      cases hc
  subst hpre
  cases h1'
  obtain ⟨y, hy, hd⟩ := h6 j x hx h0
  rcases hd with ⟨c, -⟩ | ⟨c, m, n, hone', e⟩
  · omega
  · rw [hone] at hone'; cases hone'
    rw [hy, e]

end Verif.Select
