import Verif.Ports

/-!
# Properties of the port table (C31, C32, C33)
-/

set_option linter.unusedSimpArgs false

namespace Verif.Ports

/-! ## Specification -/

/-- A reservation somebody holds. -/
structure Hold where
  addr : Addr
  key : Key
  /-- the holder allows others -/
  reb : Bool
  deriving DecidableEq, Repr

/-- Two reservations of one port of one type for the same address, or one of them for all addresses. -/
def Overlap (a b : Hold) : Prop := a.key = b.key ∧ (a.addr = b.addr ∨ a.addr.unspec ∨ b.addr.unspec)

/-- Overlapping and not both sharing. -/
def Conflict (a b : Hold) : Prop := Overlap a b ∧ ¬ (a.reb ∧ b.reb)

instance (a b : Hold) : Decidable (Overlap a b) := inferInstanceAs (Decidable (_ ∧ _))
instance (a b : Hold) : Decidable (Conflict a b) := inferInstanceAs (Decidable (_ ∧ _))

/-- Calls on the table. -/
inductive Op
  | reserve (a : Addr) (port : Nat) (ty : PType) (reb : Bool)
  | release (a : Addr) (port : Nat) (ty : PType)
  deriving DecidableEq, Repr

/-- The table, and the reservations that were granted and not released since. -/
structure Sys where
  net : Net
  held : List Hold

def Sys.init : Sys := { net := .init, held := [] }

/-- The reservations after a call with this result. -/
def heldAfter (held : List Hold) (op : Op) (r : Ret) : List Hold :=
  match op, r with
  | .reserve a _ ty reb, .ok p => { addr := a, key := ⟨p.toNat, ty⟩, reb := reb } :: held
  | .release a port ty, .ok _ => held.eraseP (fun h => h.addr == a && h.key == ⟨port, ty⟩)
  | _, _ => held

/-- One call. -/
def call (devs : List Addr) (n : Net) : Op → Net × Ret
  | .reserve a p ty reb => reserve devs n a p ty reb
  | .release a p ty => release devs n a p ty

def step (devs : List Addr) (s : Sys) (op : Op) : Sys :=
  { net := (call devs s.net op).1, held := heldAfter s.held op (call devs s.net op).2 }

/-- What the callers must respect for the table to work: a reservation of a given port for one address is not made while
the port is held only for other addresses (`unrecorded_violated`); it is not joined to a shared one without asking
for sharing (`join_violated`), nor to a shared one for all addresses (`release_all_violated`); and only what is
held is released (`failed_bind_violated`). -/
def Clean (held : List Hold) : Op → Prop
  | .reserve a port ty reb =>
    port = 0 ∨ a.unspec ∨
      ((∀ h ∈ held, h.key = ⟨port, ty⟩ → ∃ h' ∈ held, h'.key = ⟨port, ty⟩ ∧ (h'.addr = a ∨ h'.addr.unspec)) ∧
       ∀ h ∈ held, h.key = ⟨port, ty⟩ → (h.addr = a ∨ h.addr.unspec) → h.reb = true → reb = true ∧ h.addr = a)
  | .release a port ty => ∃ h ∈ held, h.addr = a ∧ h.key = ⟨port, ty⟩

/-- States reached by such calls. -/
inductive Reach (devs : List Addr) : Sys → Prop
  | init : Reach devs .init
  | step {s op} : Reach devs s → Clean s.held op → Reach devs (step devs s op)

/-! ## Invariant -/

/-- How many hold this port for this address. -/
def cnt (held : List Hold) (k : Key) (a : Addr) : Nat := held.countP (fun h => h.key == k && h.addr == a)

/-- A port held for single addresses. -/
structure Single (held : List Hold) (k : Key) (l : Users) : Prop where
  ne : l ≠ []
  nodup : (l.map Prod.fst).Nodup
  spec : ∀ u ∈ l, u.1.unspec = false
  pos : ∀ u ∈ l, 0 < cnt held k u.1
  reb : ∀ u ∈ l, ∀ h ∈ held, h.key = k → h.addr = u.1 → h.reb = decide (u.2 ≠ 0)
  one : ∀ u ∈ l, u.2 = 0 → cnt held k u.1 = 1
  many : ∀ u ∈ l, u.2 ≠ 0 → cnt held k u.1 = u.2
  all : ∀ h ∈ held, h.key = k → ∃ n, (h.addr, n) ∈ l

/-- A port held for all addresses. -/
def Whole (devs : List Addr) (held : List Hold) (k : Key) (l : Users) : Prop :=
  ∃ h ∈ held, h.key = k ∧ h.addr.unspec = true ∧ (∀ h' ∈ held, h'.key = k → h' = h) ∧ cnt held k h.addr = 1 ∧
    l = devs.map (fun d => (d, firstCount h.reb))

def Rep (devs : List Addr) (held : List Hold) (k : Key) : Option Users → Prop
  | none => ∀ h ∈ held, h.key ≠ k
  | some l => Whole devs held k l ∨ Single held k l

structure Inv (devs : List Addr) (s : Sys) : Prop where
  rep : ∀ k, Rep devs s.held k (s.net.used k)
  next : ∀ ty, ephStart ≤ s.net.next ty ∧ s.net.next ty ≤ ephEnd
  excl : s.held.Pairwise (fun a b => ¬ Conflict a b)
  dev : ∀ h ∈ s.held, h.addr ∈ devs

theorem cnt_cons (h : Hold) (held : List Hold) (k : Key) (a : Addr) :
    cnt (h :: held) k a = cnt held k a + if h.key = k ∧ h.addr = a then 1 else 0 := by
  simp only [cnt, List.countP_cons]
  congr 1
  simp

theorem cnt_zero {held : List Hold} {k : Key} {a : Addr} (h : ∀ x ∈ held, x.key = k → x.addr ≠ a) : cnt held k a = 0 := by
  simp only [cnt, List.countP_eq_zero]
  intro x hx
  simp only [Bool.and_eq_true, beq_iff_eq, not_and]
  exact h x hx

theorem cnt_pos {held : List Hold} {k : Key} {a : Addr} : 0 < cnt held k a ↔ ∃ x ∈ held, x.key = k ∧ x.addr = a := by
  simp only [cnt, List.countP_pos_iff, Bool.and_eq_true, beq_iff_eq]

/-- Only the holds of a key matter. -/
theorem Rep.congr {devs : List Addr} {held held' : List Hold} {k : Key} {o : Option Users}
    (hm : ∀ h, h.key = k → (h ∈ held' ↔ h ∈ held)) (hc : ∀ a, cnt held' k a = cnt held k a)
    (h : Rep devs held k o) : Rep devs held' k o := by
  cases o with
  | none => intro x hx hk; exact h x ((hm x hk).1 hx) hk
  | some l =>
    rcases h with ⟨x, h1, h2, h3, h4, h5, h6⟩ | h
    · exact .inl ⟨x, (hm x h2).2 h1, h2, h3, fun y hy hk => h4 y ((hm y hk).1 hy) hk, by rw [hc]; exact h5, h6⟩
    · exact .inr ⟨h.ne, h.nodup, h.spec, fun u hu => by rw [hc]; exact h.pos u hu,
        fun u hu x hx hk => h.reb u hu x ((hm x hk).1 hx) hk, fun u hu e => by rw [hc]; exact h.one u hu e,
        fun u hu e => by rw [hc]; exact h.many u hu e, fun x hx hk => h.all x ((hm x hk).1 hx) hk⟩

theorem Rep.cons_ne {devs : List Addr} {held : List Hold} {k : Key} {o : Option Users} {h : Hold} (hne : h.key ≠ k)
    (hr : Rep devs held k o) : Rep devs (h :: held) k o :=
  hr.congr (fun x hx => by
      simp only [List.mem_cons]
      constructor
      · rintro (rfl | h')
        · exact absurd hx hne
        · exact h'
      · exact .inr)
    (fun a => by rw [cnt_cons]; simp [hne])

/-! ### Lemmas about the loops -/

theorem addUser_none {a : Addr} {l : Users} (hn : (l.map Prod.fst).Nodup) {n : Nat} (hm : (a, n) ∈ l) :
    addUser a l = if n = 0 then none else some (l.map (fun u => if u.1 = a then (a, n + 1) else u)) := by
  induction l with
  | nil => simp at hm
  | cons u us ih =>
    simp only [List.map_cons, List.nodup_cons] at hn
    simp only [addUser]
    rcases List.mem_cons.1 hm with rfl | hm
    · simp only [if_true]
      split
      · rfl
      · simp only [List.map_cons, if_true]
        congr 2
        have : us.map (fun u => if u.1 = a then (a, n + 1) else u) = us.map id := by
          apply List.map_congr_left
          intro v hv
          have : v.1 ≠ a := by rintro rfl; exact hn.1 (List.mem_map.2 ⟨v, hv, rfl⟩)
          simp [this]
        rw [this, List.map_id]
    · have hne : u.1 ≠ a := by
        intro e
        exact hn.1 (List.mem_map.2 ⟨_, hm, e.symm⟩)
      rw [if_neg hne, ih hn.2 hm]
      split
      · rfl
      · simp [hne]

theorem addUser_whole {a : Addr} {devs : List Addr} (h : a ∈ devs) (c : Nat) :
    (addUser a (devs.map (fun d => (d, c)))).isSome = decide (c ≠ 0) := by
  induction devs with
  | nil => simp at h
  | cons d ds ih =>
    simp only [List.map_cons, addUser]
    split
    · split <;> simp_all
    · rename_i hne
      rcases List.mem_cons.1 h with e | h
      · exact absurd e.symm hne
      · simp [ih h]

theorem findUser_spec {a : Addr} {l : Users} {n : Nat} (hn : (l.map Prod.fst).Nodup) (hm : (a, n) ∈ l) (i : Nat) :
    ∃ xs ys, l = xs ++ (a, n) :: ys ∧ findUser a l i = some (i + xs.length, n) := by
  induction l generalizing i with
  | nil => simp at hm
  | cons u us ih =>
    simp only [List.map_cons, List.nodup_cons] at hn
    rcases List.mem_cons.1 hm with rfl | hm
    · exact ⟨[], us, rfl, by simp [findUser]⟩
    · have hne : u.1 ≠ a := by
        intro e
        exact hn.1 (List.mem_map.2 ⟨_, hm, e.symm⟩)
      obtain ⟨xs, ys, h1, h2⟩ := ih hn.2 hm (i + 1)
      refine ⟨u :: xs, ys, by rw [h1]; rfl, ?_⟩
      rw [findUser, if_neg hne, h2]
      simp; omega

theorem swapRemove_perm (xs : Users) (x : Addr × Nat) (ys : Users) :
    (swapRemove (xs ++ x :: ys) xs.length).Perm (xs ++ ys) := by
  rcases List.eq_nil_or_concat ys with rfl | ⟨zs, z, rfl⟩
  · simp [swapRemove]
  · rw [List.concat_eq_append]
    have h1 : (xs ++ x :: (zs ++ [z])).getLast? = some z := by
      rw [show xs ++ x :: (zs ++ [z]) = (xs ++ x :: zs) ++ [z] by simp, List.getLast?_concat]
    have h2 : List.set (xs ++ x :: (zs ++ [z])) (List.length xs) z = (xs ++ z :: zs) ++ [z] := by
      have := List.set_append_right (s := xs) (t := x :: (zs ++ [z])) xs.length z (Nat.le_refl _)
      exact this.trans (by simp)
    simp only [swapRemove, h1]
    rw [h2, List.dropLast_concat]
    refine List.Perm.append_left xs ?_
    exact (List.perm_append_comm (l₁ := [z]) (l₂ := zs))

theorem swapRemove_length {l : Users} (h : l ≠ []) (i : Nat) : (swapRemove l i).length = l.length - 1 := by
  simp only [swapRemove]
  cases hx : l.getLast? with
  | none => simp at hx; exact absurd hx h
  | some x => simp

theorem dropAll_small : ∀ (us arr : Users), (∀ u ∈ us, u.2 ≤ 1) → us.length ≤ arr.length →
    ∃ r, dropAll us arr = some r ∧ r.length = arr.length - us.length := by
  intro us
  induction us with
  | nil => intro arr _ _; exact ⟨arr, rfl, by simp⟩
  | cons u us ih =>
    intro arr hu hl
    simp only [List.length_cons] at hl
    have hne : arr ≠ [] := by rintro rfl; simp at hl
    simp only [dropAll, hu u (by simp), if_true, if_neg hne]
    have hsl := swapRemove_length hne 0
    obtain ⟨r, h1, h2⟩ := ih (swapRemove arr 0) (fun v hv => hu v (by simp [hv])) (by omega)
    refine ⟨r, h1, ?_⟩
    simp only [List.length_cons]; omega

theorem candidates_mem {next q : Nat} (h1 : ephStart ≤ next) (h2 : next ≤ ephEnd) :
    q ∈ candidates next ↔ ephStart ≤ q ∧ q ≤ ephEnd := by
  simp only [candidates, down, List.mem_append, List.mem_reverse, List.mem_range'_1]
  unfold ephStart ephEnd at *
  omega

theorem decNext_range {n : Nat} (h2 : n ≤ ephEnd) : ephStart ≤ decNext n ∧ decNext n ≤ ephEnd := by
  unfold decNext
  split
  · unfold ephStart ephEnd; omega
  · omega

/-! ### Every clean call keeps the invariant -/

/-- A new hold on a port nobody had. -/
theorem Rep.fresh_all {devs : List Addr} {held : List Hold} {k : Key} {a : Addr} {reb : Bool}
    (hr : ∀ h ∈ held, h.key ≠ k) (hu : a.unspec = true) :
    Rep devs (⟨a, k, reb⟩ :: held) k (some (devs.map (fun d => (d, firstCount reb)))) := by
  refine .inl ⟨⟨a, k, reb⟩, by simp, rfl, hu, ?_, ?_, rfl⟩
  · intro h' hm hk
    rcases List.mem_cons.1 hm with e | hm
    · exact e
    · exact absurd hk (hr h' hm)
  · rw [cnt_cons, cnt_zero (fun x hx hk => absurd hk (hr x hx))]; simp

theorem firstCount_ne (reb : Bool) : decide (firstCount reb ≠ 0) = reb := by cases reb <;> rfl

theorem Rep.fresh_one {devs : List Addr} {held : List Hold} {k : Key} {a : Addr} {reb : Bool}
    (hr : ∀ h ∈ held, h.key ≠ k) (hu : a.unspec = false) :
    Rep devs (⟨a, k, reb⟩ :: held) k (some [(a, firstCount reb)]) := by
  have hc : cnt (⟨a, k, reb⟩ :: held) k a = 1 := by
    rw [cnt_cons, cnt_zero (fun x hx hk => absurd hk (hr x hx))]; simp
  refine .inr ⟨by simp, by simp, by simpa using hu, by simp [hc], ?_, by simp [hc], ?_, ?_⟩
  · intro u hu' h hm hk he
    simp only [List.mem_singleton] at hu'; subst hu'
    rcases List.mem_cons.1 hm with e | hm
    · subst e; exact (firstCount_ne reb).symm
    · exact absurd hk (hr h hm)
  · intro u hu' hn
    simp only [List.mem_singleton] at hu'; subst hu'
    rw [hc]
    cases reb
    · exact absurd rfl hn
    · rfl
  · intro h hm hk
    rcases List.mem_cons.1 hm with e | hm
    · subst e; exact ⟨_, by simp; rfl⟩
    · exact absurd hk (hr h hm)

/-- A hold for a further address of a port. -/
theorem Single.push {held : List Hold} {k : Key} {l : Users} {a : Addr} {reb : Bool} (h : Single held k l)
    (hu : a.unspec = false) (hn : ∀ u ∈ l, u.1 ≠ a) : Single (⟨a, k, reb⟩ :: held) k (l ++ [(a, firstCount reb)]) := by
  have hz : cnt held k a = 0 := cnt_zero fun x hx hk e => by
    obtain ⟨n, hm⟩ := h.all x hx hk
    exact hn _ hm e
  have hc : cnt (⟨a, k, reb⟩ :: held) k a = 1 := by rw [cnt_cons, hz]; simp
  have ho : ∀ b, b ≠ a → cnt (⟨a, k, reb⟩ :: held) k b = cnt held k b := fun b hb => by
    rw [cnt_cons]; simp [Ne.symm hb]
  refine ⟨by simp, ?_, ?_, ?_, ?_, ?_, ?_, ?_⟩
  · rw [List.map_append, List.nodup_append]
    refine ⟨h.nodup, by simp, ?_⟩
    intro x hx y hy
    obtain ⟨u, h1, rfl⟩ := List.mem_map.1 hx
    simp at hy
    subst hy
    exact hn u h1
  · intro u hu'
    rcases List.mem_append.1 hu' with hm | hm
    · exact h.spec u hm
    · simp only [List.mem_singleton] at hm; subst hm; exact hu
  · intro u hu'
    rcases List.mem_append.1 hu' with hm | hm
    · rw [ho _ (hn u hm)]; exact h.pos u hm
    · simp only [List.mem_singleton] at hm; subst hm; simp only [hc]; omega
  · intro u hu'
    rcases List.mem_append.1 hu' with hm | hm
    · intro x hx hk he
      rcases List.mem_cons.1 hx with e | hx
      · subst e; exact absurd he.symm (hn u hm)
      · exact h.reb u hm x hx hk he
    · simp only [List.mem_singleton] at hm; subst hm
      intro x hx hk he
      rcases List.mem_cons.1 hx with e | hx
      · subst e; exact (firstCount_ne reb).symm
      · obtain ⟨n, hm'⟩ := h.all x hx hk
        exact absurd he (hn _ hm')
  · intro u hu'
    rcases List.mem_append.1 hu' with hm | hm
    · intro e; rw [ho _ (hn u hm)]; exact h.one u hm e
    · simp only [List.mem_singleton] at hm; subst hm; intro _; exact hc
  · intro u hu'
    rcases List.mem_append.1 hu' with hm | hm
    · intro e; rw [ho _ (hn u hm)]; exact h.many u hm e
    · simp only [List.mem_singleton] at hm; subst hm
      intro e; simp only [hc]
      cases reb
      · exact absurd rfl e
      · rfl
  · intro x hx hk
    rcases List.mem_cons.1 hx with e | hx
    · subst e; exact ⟨_, List.mem_append_right _ (by simp; rfl)⟩
    · obtain ⟨n, hm⟩ := h.all x hx hk
      exact ⟨n, List.mem_append_left _ hm⟩

theorem fst_unique {l : List (Addr × Nat)} (hn : (l.map Prod.fst).Nodup) {u v : Addr × Nat} (hu : u ∈ l) (hv : v ∈ l)
    (e : u.1 = v.1) : u = v := by
  induction l with
  | nil => cases hu
  | cons x xs ih =>
    simp only [List.map_cons, List.nodup_cons] at hn
    rcases List.mem_cons.1 hu with h1 | h1 <;> rcases List.mem_cons.1 hv with h2 | h2
    · rw [h1, h2]
    · exact absurd (List.mem_map.2 ⟨v, h2, by rw [← e, h1]⟩) hn.1
    · exact absurd (List.mem_map.2 ⟨u, h1, by rw [e, h2]⟩) hn.1
    · exact ih hn.2 h1 h2

/-- One more holder for an address that is shared. -/
theorem Single.join {held : List Hold} {k : Key} {l : Users} {a : Addr} {n : Nat} (h : Single held k l)
    (hm : (a, n) ∈ l) (h0 : n ≠ 0) :
    Single (⟨a, k, true⟩ :: held) k (l.map (fun u => if u.1 = a then (a, n + 1) else u)) := by
  have uniq : ∀ u ∈ l, u.1 = a → u = (a, n) := by
    intro u hu e
    exact fst_unique h.nodup hu hm e
  have hc : cnt (⟨a, k, true⟩ :: held) k a = n + 1 := by rw [cnt_cons, h.many _ hm h0]; simp
  have ho : ∀ b, b ≠ a → cnt (⟨a, k, true⟩ :: held) k b = cnt held k b := fun b hb => by
    rw [cnt_cons]; simp [Ne.symm hb]
  have mem : ∀ v, v ∈ l.map (fun u => if u.1 = a then (a, n + 1) else u) → v = (a, n + 1) ∨ (v ∈ l ∧ v.1 ≠ a) := by
    intro v hv
    obtain ⟨u, h1, rfl⟩ := List.mem_map.1 hv
    split
    · exact .inl rfl
    · rename_i hne; exact .inr ⟨h1, hne⟩
  refine ⟨?_, ?_, ?_, ?_, ?_, ?_, ?_, ?_⟩
  · simpa using h.ne
  · rw [List.map_map]
    have : l.map (Prod.fst ∘ fun u => if u.1 = a then (a, n + 1) else u) = l.map Prod.fst := by
      apply List.map_congr_left
      intro u _
      simp only [Function.comp]
      split
      · rename_i e; exact e.symm
      · rfl
    rw [this]; exact h.nodup
  · intro u hu
    rcases mem u hu with rfl | ⟨h1, h2⟩
    · exact h.spec (a, n) hm
    · exact h.spec u h1
  · intro u hu
    rcases mem u hu with rfl | ⟨h1, h2⟩
    · simp only [hc]; omega
    · rw [ho _ h2]; exact h.pos u h1
  · intro u hu x hx hk he
    rcases mem u hu with rfl | ⟨h1, h2⟩
    · rcases List.mem_cons.1 hx with e | hx
      · subst e; simp
      · have := h.reb _ hm x hx hk he
        simpa [h0] using this
    · rcases List.mem_cons.1 hx with e | hx
      · subst e; exact absurd he.symm h2
      · exact h.reb u h1 x hx hk he
  · intro u hu e
    rcases mem u hu with rfl | ⟨h1, h2⟩
    · simp at e
    · rw [ho _ h2]; exact h.one u h1 e
  · intro u hu e
    rcases mem u hu with rfl | ⟨h1, h2⟩
    · exact hc
    · rw [ho _ h2]; exact h.many u h1 e
  · intro x hx hk
    rcases List.mem_cons.1 hx with e | hx
    · subst e
      exact ⟨n + 1, List.mem_map.2 ⟨(a, n), hm, by simp⟩⟩
    · obtain ⟨m, hm'⟩ := h.all x hx hk
      by_cases e : x.addr = a
      · exact ⟨n + 1, List.mem_map.2 ⟨_, hm', by simp [e]⟩⟩
      · exact ⟨m, List.mem_map.2 ⟨_, hm', by simp [e]⟩⟩

/-- The entry `initialize_port` makes. -/
theorem Rep.init {devs : List Addr} {held : List Hold} {k : Key} {o : Option Users} {a : Addr} {reb : Bool} {l' : Users}
    (hr : Rep devs held k o) (ha : a ∈ devs) (hi : initPort devs o a reb = some l') :
    Rep devs (⟨a, k, reb⟩ :: held) k (some l') ∧ ∀ h ∈ held, ¬ Overlap ⟨a, k, reb⟩ h := by
  simp only [initPort] at hi
  split at hi
  · rename_i hu
    cases o with
    | some l => cases hi
    | none =>
      cases hi
      exact ⟨Rep.fresh_all hr hu, fun h hm hov => hr h hm hov.1.symm⟩
  · rename_i hu
    have hu : a.unspec = false := by simpa using hu
    cases o with
    | none =>
      cases hi
      exact ⟨Rep.fresh_one hr hu, fun h hm hov => hr h hm hov.1.symm⟩
    | some l =>
      simp only at hi
      split at hi
      · cases hi
      · rename_i hany
        cases hi
        have hn : ∀ u ∈ l, u.1 ≠ a := by
          intro u hu' e
          exact hany (List.any_eq_true.2 ⟨u, hu', by simp [e]⟩)
        rcases hr with ⟨h, h1, h2, h3, h4, h5, h6⟩ | hs
        · exact absurd rfl (hn (a, firstCount h.reb) (by rw [h6]; exact List.mem_map.2 ⟨a, ha, rfl⟩))
        · refine ⟨.inr (hs.push hu hn), fun h hm hov => ?_⟩
          obtain ⟨m, hm'⟩ := hs.all h hm hov.1.symm
          rcases hov.2 with e | e | e
          · exact hn _ hm' e.symm
          · rw [show Addr.unspec a = false from hu] at e; cases e
          · have := hs.spec _ hm'
            simp only at this
            rw [this] at e; cases e

/-- Why `initialize_port` refuses. -/
theorem Rep.init_none {devs : List Addr} {held : List Hold} {k : Key} {o : Option Users} {a : Addr} {reb : Bool}
    (hr : Rep devs held k o) (hi : initPort devs o a reb = none) : ∃ h ∈ held, Overlap ⟨a, k, reb⟩ h := by
  simp only [initPort] at hi
  split at hi
  · rename_i hu
    cases o with
    | none => cases hi
    | some l =>
      rcases hr with ⟨h, h1, h2, -⟩ | hs
      · exact ⟨h, h1, h2.symm, .inr (.inl hu)⟩
      · cases hl : l with
        | nil => exact absurd hl hs.ne
        | cons u us =>
          obtain ⟨x, h1, h2, h3⟩ := cnt_pos.1 (hs.pos u (by rw [hl]; simp))
          exact ⟨x, h1, h2.symm, .inr (.inl hu)⟩
  · rename_i hu
    cases o with
    | none => cases hi
    | some l =>
      simp only at hi
      split at hi
      · rename_i hany
        obtain ⟨u, h1, h2⟩ := List.any_eq_true.1 hany
        rcases hr with ⟨h, g1, g2, g3, -⟩ | hs
        · exact ⟨h, g1, g2.symm, .inr (.inr g3)⟩
        · obtain ⟨x, g1, g2, g3⟩ := cnt_pos.1 (hs.pos u h1)
          refine ⟨x, g1, g2.symm, .inl ?_⟩
          rw [g3]; simpa using (beq_iff_eq.1 h2).symm
      · cases hi

theorem not_conflict_of {h : Hold} {held : List Hold} (hn : ∀ x ∈ held, ¬ Conflict h x)
    (he : held.Pairwise (fun a b => ¬ Conflict a b)) : (h :: held).Pairwise (fun a b => ¬ Conflict a b) :=
  List.pairwise_cons.2 ⟨hn, he⟩

theorem mem_dev {devs : List Addr} {a : Addr} {k : Key} {reb : Bool} {held : List Hold} (ha : a ∈ devs)
    (h : ∀ x ∈ held, x.addr ∈ devs) : ∀ x ∈ (⟨a, k, reb⟩ :: held : List Hold), x.addr ∈ devs := by
  intro x hx
  rcases List.mem_cons.1 hx with rfl | hx
  · exact ha
  · exact h x hx

theorem addUser_absent {a : Addr} {l : Users} (h : ∀ u ∈ l, u.1 ≠ a) : addUser a l = some l := by
  induction l with
  | nil => rfl
  | cons u us ih => simp [addUser, h u (by simp), ih (fun v hv => h v (by simp [hv]))]

/-- A reservation of a given port that succeeds. -/
theorem Rep.reserve_one {devs : List Addr} {held : List Hold} {k : Key} {l l' : Users} {a : Addr} {reb : Bool}
    (hr : Rep devs held k (some l)) (ha : a ∈ devs)
    (hc1 : ∀ h ∈ held, h.key = k → ∃ h' ∈ held, h'.key = k ∧ (h'.addr = a ∨ h'.addr.unspec))
    (hc2 : ∀ h ∈ held, h.key = k → (h.addr = a ∨ h.addr.unspec) → h.reb = true → reb = true ∧ h.addr = a)
    (hi : addUser a l = some l') (hus : a.unspec = false) :
    Rep devs (⟨a, k, reb⟩ :: held) k (some l') ∧ ∀ h ∈ held, ¬ Conflict ⟨a, k, reb⟩ h := by
  rcases hr with ⟨h, h1, h2, h3, h4, h5, h6⟩ | hs
  · exfalso
    have := addUser_whole ha (firstCount h.reb)
    rw [← h6, hi, firstCount_ne] at this
    have hreb : h.reb = true := by simpa using this.symm
    have := (hc2 h h1 h2 (.inr h3) hreb).2
    rw [this, hus] at h3; cases h3
  · have hex : ∃ n, (a, n) ∈ l := by
      cases hl : l with
      | nil => exact absurd hl hs.ne
      | cons u us =>
        obtain ⟨x, g1, g2, -⟩ := cnt_pos.1 (hs.pos u (by rw [hl]; simp))
        obtain ⟨y, f1, f2, f3⟩ := hc1 x g1 g2
        obtain ⟨n, hn⟩ := hs.all y f1 f2
        rcases f3 with e | e
        · rw [← hl]; exact ⟨n, e ▸ hn⟩
        · have := hs.spec _ hn
          simp only at this
          rw [this] at e; cases e
    obtain ⟨n, hn⟩ := hex
    rw [addUser_none hs.nodup hn] at hi
    split at hi
    · cases hi
    · rename_i h0
      cases hi
      obtain ⟨x, g1, g2, g3⟩ := cnt_pos.1 (hs.pos _ hn)
      have hxr := hs.reb _ hn x g1 g2 g3
      have hreb : reb = true := (hc2 x g1 g2 (.inl g3) (by simpa [h0] using hxr)).1
      subst hreb
      refine ⟨.inr (hs.join hn h0), ?_⟩
      rintro y hy ⟨⟨e1, e2⟩, e3⟩
      obtain ⟨m, hm⟩ := hs.all y hy e1.symm
      have hys := hs.spec _ hm
      simp only at hys e1 e2 e3
      have : y.addr = a := by
        rcases e2 with e | e | e
        · exact e.symm
        · rw [hus] at e; cases e
        · rw [hys] at e; cases e
      have hyr := hs.reb _ hn y hy e1.symm this
      simp [h0] at hyr
      exact e3 ⟨trivial, hyr⟩

/-- Why a reservation of a given port is refused. -/
theorem Rep.refuse_one {devs : List Addr} {held : List Hold} {k : Key} {l : Users} {a : Addr} {reb : Bool}
    (hr : Rep devs held k (some l)) (hi : addUser a l = none) : ∃ h ∈ held, Conflict ⟨a, k, reb⟩ h := by
  rcases hr with ⟨h, h1, h2, h3, h4, h5, h6⟩ | hs
  · refine ⟨h, h1, ⟨h2.symm, .inr (.inr h3)⟩, ?_⟩
    rintro ⟨-, e⟩
    by_cases ha : a ∈ devs
    · have := addUser_whole ha (firstCount h.reb)
      rw [← h6, hi, firstCount_ne, e] at this
      cases this
    · rw [h6, addUser_absent (fun u hu => by
        obtain ⟨d, hd, rfl⟩ := List.mem_map.1 hu
        rintro rfl; exact ha hd)] at hi
      cases hi
  · by_cases hex : ∃ n, (a, n) ∈ l
    · obtain ⟨n, hn⟩ := hex
      rw [addUser_none hs.nodup hn] at hi
      split at hi
      · rename_i h0
        obtain ⟨x, g1, g2, g3⟩ := cnt_pos.1 (hs.pos _ hn)
        have hxr := hs.reb _ hn x g1 g2 g3
        simp [h0] at hxr
        refine ⟨x, g1, ⟨g2.symm, .inl g3.symm⟩, ?_⟩
        rintro ⟨-, e⟩
        rw [hxr] at e; cases e
      · cases hi
    · rw [addUser_absent (fun u hu e => hex ⟨u.2, by rw [← e]; exact hu⟩)] at hi
      cases hi

/-- Invariant and outcome of a reservation. -/
theorem Inv.step_reserve {devs : List Addr} {s : Sys} (hi : Inv devs s) {a : Addr} {port : Nat} {ty : PType} {reb : Bool}
    (hc : Clean s.held (.reserve a port ty reb)) : Inv devs (step devs s (.reserve a port ty reb)) := by
  simp only [step, call]
  generalize hx : reserve devs s.net a port ty reb = x
  simp only [Ports.reserve] at hx
  split at hx
  · subst hx; exact hi
  rename_i hd
  have ha : a ∈ devs := by simpa using hd
  split at hx
  · -- ephemeral
    simp only [ephemeral, hd, if_false, Bool.false_eq_true] at hx
    split at hx
    · subst hx; exact hi
    · rename_i q hq
      subst hx
      simp only [heldAfter, Int.toNat_natCast]
      have hq' := List.find?_some hq
      obtain ⟨l', hl⟩ := Option.isSome_iff_exists.1 hq'
      obtain ⟨h1, h2⟩ := (hi.rep ⟨swap16 q, ty⟩).init ha hl
      refine ⟨fun k => ?_, fun t => ?_, not_conflict_of (fun y hy hcf => h2 y hy hcf.1) hi.excl, mem_dev ha hi.dev⟩
      · by_cases hk : k = ⟨swap16 q, ty⟩
        · subst hk; simp only [updK_same, hl]; exact h1
        · simp only [updK_ne _ _ hk]; exact (hi.rep k).cons_ne (Ne.symm hk)
      · by_cases ht : t = ty
        · subst ht; simp only [updK_same]; exact decNext_range (hi.next t).2
        · simp only [updK_ne _ _ ht]; exact hi.next t
  rename_i hp
  split at hx
  · rename_i hu
    split at hx
    · subst hx; exact hi
    · rename_i hn
      subst hx
      simp only [heldAfter, Int.toNat_natCast]
      have hr := hi.rep ⟨port, ty⟩
      rw [hn] at hr
      refine ⟨fun k => ?_, hi.next, not_conflict_of (fun y hy hcf => hr y hy hcf.1.1.symm) hi.excl, mem_dev ha hi.dev⟩
      by_cases hk : k = ⟨port, ty⟩
      · subst hk; simp only [updK_same]; exact Rep.fresh_all hr hu
      · simp only [updK_ne _ _ hk]; exact (hi.rep k).cons_ne (Ne.symm hk)
  · rename_i hu
    have hu : a.unspec = false := by simpa using hu
    rcases hc with e | e | ⟨hc1, hc2⟩
    · exact absurd e hp
    · rw [hu] at e; cases e
    split at hx
    · rename_i l hl
      have hr := hi.rep ⟨port, ty⟩
      rw [hl] at hr
      split at hx
      · subst hx; exact hi
      · rename_i l' hl'
        subst hx
        simp only [heldAfter, Int.toNat_natCast]
        obtain ⟨h1, h2⟩ := hr.reserve_one ha hc1 hc2 hl' hu
        refine ⟨fun k => ?_, hi.next, not_conflict_of h2 hi.excl, mem_dev ha hi.dev⟩
        by_cases hk : k = ⟨port, ty⟩
        · subst hk; simp only [updK_same]; exact h1
        · simp only [updK_ne _ _ hk]; exact (hi.rep k).cons_ne (Ne.symm hk)
    · rename_i hn
      subst hx
      simp only [heldAfter, Int.toNat_natCast]
      have hr := hi.rep ⟨port, ty⟩
      rw [hn] at hr
      refine ⟨fun k => ?_, hi.next, not_conflict_of (fun y hy hcf => hr y hy hcf.1.1.symm) hi.excl, mem_dev ha hi.dev⟩
      by_cases hk : k = ⟨port, ty⟩
      · subst hk; simp only [updK_same]; exact Rep.fresh_one hr hu
      · simp only [updK_ne _ _ hk]; exact (hi.rep k).cons_ne (Ne.symm hk)

/-- Taking one hold out. -/
def drop1 (held : List Hold) (a : Addr) (k : Key) : List Hold := held.eraseP (fun h => h.addr == a && h.key == k)

theorem drop1_mem {held : List Hold} {a : Addr} {k : Key} {h : Hold} (hne : ¬ (h.addr = a ∧ h.key = k)) :
    h ∈ drop1 held a k ↔ h ∈ held := by
  rw [drop1, List.mem_eraseP_of_neg]
  simpa using hne

theorem cnt_split {held : List Hold} {a b : Addr} {k k' : Key} (hex : ∃ h ∈ held, h.addr = a ∧ h.key = k) :
    cnt held k' b = cnt (drop1 held a k) k' b + if k = k' ∧ a = b then 1 else 0 := by
  obtain ⟨h, hm, h1, h2⟩ := hex
  obtain ⟨x, xs, ys, -, g2, g3, g4⟩ := List.exists_of_eraseP (p := fun h : Hold => h.addr == a && h.key == k) hm
    (by simp [h1, h2])
  have : cnt held k' b = cnt (x :: (xs ++ ys)) k' b := by
    rw [g3]; simp only [cnt, List.countP_append, List.countP_cons]; omega
  rw [this, cnt_cons]
  have e : x.addr = a ∧ x.key = k := by simpa using g2
  rw [drop1, g4, e.1, e.2]

theorem cnt_drop1_same {held : List Hold} {a : Addr} {k : Key} (hex : ∃ h ∈ held, h.addr = a ∧ h.key = k) :
    cnt (drop1 held a k) k a = cnt held k a - 1 := by
  have := cnt_split (k' := k) (b := a) hex
  simp at this; omega

theorem cnt_drop1_ne {held : List Hold} {a b : Addr} {k k' : Key} (hex : ∃ h ∈ held, h.addr = a ∧ h.key = k)
    (hne : ¬ (k = k' ∧ a = b)) : cnt (drop1 held a k) k' b = cnt held k' b := by
  have := cnt_split (k' := k') (b := b) hex
  simp [hne] at this; exact this.symm

theorem drop1_sub (held : List Hold) (a : Addr) (k : Key) : (drop1 held a k).Sublist held := List.eraseP_sublist

theorem Rep.drop_ne {devs : List Addr} {held : List Hold} {a : Addr} {k k' : Key} {o : Option Users}
    (hex : ∃ h ∈ held, h.addr = a ∧ h.key = k) (hne : k' ≠ k) (hr : Rep devs held k' o) :
    Rep devs (drop1 held a k) k' o :=
  hr.congr (fun h hk => drop1_mem (by rintro ⟨-, e⟩; exact hne (hk ▸ e)))
    (fun b => cnt_drop1_ne hex (by rintro ⟨e, -⟩; exact hne e.symm))

/-- The last hold of an address goes. -/
theorem Single.remove {held : List Hold} {a : Addr} {k : Key} {l l' : Users} {n : Nat} {xs ys : Users}
    (h : Single held k l) (hex : ∃ h ∈ held, h.addr = a ∧ h.key = k) (hl : l = xs ++ (a, n) :: ys) (hn : n ≤ 1)
    (hp : l'.Perm (xs ++ ys)) (hne : l' ≠ []) : Single (drop1 held a k) k l' := by
  have hm : (a, n) ∈ l := by rw [hl]; simp
  have hc : cnt held k a = 1 := by
    by_cases h0 : n = 0
    · exact h.one _ hm h0
    · rw [h.many _ hm h0]; simp only; omega
  have h0 : ∀ x ∈ drop1 held a k, x.key = k → x.addr ≠ a := by
    intro x hx hk e
    have : 0 < cnt (drop1 held a k) k a := cnt_pos.2 ⟨x, hx, hk, e⟩
    rw [cnt_drop1_same hex, hc] at this
    omega
  have hlp : l.Perm ((a, n) :: l') := by
    rw [hl]
    exact List.perm_middle.trans (List.Perm.cons _ hp.symm)
  have hnd : (((a, n) :: l').map Prod.fst).Nodup := (hlp.map Prod.fst).nodup h.nodup
  simp only [List.map_cons, List.nodup_cons] at hnd
  have sub : ∀ u ∈ l', u ∈ l ∧ u.1 ≠ a := fun u hu =>
    ⟨hlp.mem_iff.2 (by simp [hu]), fun e => hnd.1 (List.mem_map.2 ⟨u, hu, e⟩)⟩
  have hcn : ∀ u ∈ l', cnt (drop1 held a k) k u.1 = cnt held k u.1 := fun u hu =>
    cnt_drop1_ne hex (by rintro ⟨-, e⟩; exact (sub u hu).2 e.symm)
  refine ⟨hne, hnd.2, fun u hu => h.spec u (sub u hu).1, ?_, ?_, ?_, ?_, ?_⟩
  · intro u hu; rw [hcn u hu]; exact h.pos u (sub u hu).1
  · intro u hu x hx hk he
    exact h.reb u (sub u hu).1 x ((drop1_sub held a k).subset hx) hk he
  · intro u hu e; rw [hcn u hu]; exact h.one u (sub u hu).1 e
  · intro u hu e; rw [hcn u hu]; exact h.many u (sub u hu).1 e
  · intro x hx hk
    obtain ⟨m, hm'⟩ := h.all x ((drop1_sub held a k).subset hx) hk
    rcases List.mem_cons.1 (hlp.mem_iff.1 hm') with e | e
    · exact absurd (congrArg Prod.fst e) (h0 x hx hk)
    · exact ⟨m, e⟩

/-- One hold of a shared address goes. -/
theorem Single.lower {held : List Hold} {a : Addr} {k : Key} {l : Users} {n : Nat} {xs ys : Users}
    (h : Single held k l) (hex : ∃ h ∈ held, h.addr = a ∧ h.key = k) (hl : l = xs ++ (a, n) :: ys) (hn : 1 < n) :
    Single (drop1 held a k) k (xs ++ (a, n - 1) :: ys) := by
  have hm : (a, n) ∈ l := by rw [hl]; simp
  have hc : cnt held k a = n := h.many _ hm (by simp only; omega)
  have hca : cnt (drop1 held a k) k a = n - 1 := by rw [cnt_drop1_same hex, hc]
  have hfst : (xs ++ (a, n - 1) :: ys).map Prod.fst = l.map Prod.fst := by rw [hl]; simp
  have hnd := h.nodup
  have mem : ∀ u, u ∈ xs ++ (a, n - 1) :: ys → u = (a, n - 1) ∨ (u ∈ l ∧ u.1 ≠ a) := by
    intro u hu
    have hu' : u = (a, n - 1) ∨ u ∈ xs ++ ys := by
      simp only [List.mem_append, List.mem_cons] at hu ⊢
      rcases hu with h | h | h
      · exact .inr (.inl h)
      · exact .inl h
      · exact .inr (.inr h)
    rcases hu' with e | e
    · exact .inl e
    · refine .inr ⟨?_, ?_⟩
      · rw [hl]; simp only [List.mem_append, List.mem_cons] at e ⊢
        rcases e with e | e
        · exact .inl e
        · exact .inr (.inr e)
      · have hlp : l.Perm ((a, n) :: (xs ++ ys)) := by rw [hl]; exact List.perm_middle
        have hnd' := (hlp.map Prod.fst).nodup hnd
        simp only [List.map_cons, List.nodup_cons] at hnd'
        exact fun e' => hnd'.1 (List.mem_map.2 ⟨u, e, e'⟩)
  have hcn : ∀ b, b ≠ a → cnt (drop1 held a k) k b = cnt held k b := fun b hb =>
    cnt_drop1_ne hex (by rintro ⟨-, e⟩; exact hb e.symm)
  refine ⟨by simp, by rw [hfst]; exact hnd, ?_, ?_, ?_, ?_, ?_, ?_⟩
  · intro u hu
    rcases mem u hu with rfl | ⟨h1, h2⟩
    · exact h.spec (a, n) hm
    · exact h.spec u h1
  · intro u hu
    rcases mem u hu with rfl | ⟨h1, h2⟩
    · simp only [hca]; omega
    · rw [hcn _ h2]; exact h.pos u h1
  · intro u hu x hx hk he
    have hx' := (drop1_sub held a k).subset hx
    rcases mem u hu with rfl | ⟨h1, h2⟩
    · have := h.reb _ hm x hx' hk he
      rw [this]
      have e1 : n ≠ 0 := by omega
      have e2 : n - 1 ≠ 0 := by omega
      simp [e1, e2]
    · exact h.reb u h1 x hx' hk he
  · intro u hu e
    rcases mem u hu with rfl | ⟨h1, h2⟩
    · simp only at e; omega
    · rw [hcn _ h2]; exact h.one u h1 e
  · intro u hu e
    rcases mem u hu with rfl | ⟨h1, h2⟩
    · exact hca
    · rw [hcn _ h2]; exact h.many u h1 e
  · intro x hx hk
    obtain ⟨m, hm'⟩ := h.all x ((drop1_sub held a k).subset hx) hk
    by_cases e : x.addr = a
    · exact ⟨n - 1, by rw [e]; simp⟩
    · refine ⟨m, ?_⟩
      rw [hl] at hm'
      simp only [List.mem_append, List.mem_cons] at hm' ⊢
      rcases hm' with h' | h' | h'
      · exact .inl h'
      · exact absurd (congrArg Prod.fst h') e
      · exact .inr (.inr h')

/-- Releasing what is held succeeds, and the new entry represents the remaining holds. -/
theorem Inv.release_ok {devs : List Addr} {s : Sys} (hi : Inv devs s) {a : Addr} {port : Nat} {ty : PType}
    (ha : a ∈ devs) (hex : ∃ h ∈ s.held, h.addr = a ∧ h.key = ⟨port, ty⟩) :
    ∃ o, Ports.release devs s.net a port ty = ({ s.net with used := updK s.net.used ⟨port, ty⟩ o }, .ok 0) ∧
      Rep devs (drop1 s.held a ⟨port, ty⟩) ⟨port, ty⟩ o := by
  have hr := hi.rep ⟨port, ty⟩
  obtain ⟨h, h1, h2, h3⟩ := hex
  have hex : ∃ h ∈ s.held, h.addr = a ∧ h.key = ⟨port, ty⟩ := ⟨h, h1, h2, h3⟩
  simp only [Ports.release]
  rw [if_neg (by simpa using ha)]
  cases hl : s.net.used ⟨port, ty⟩ with
  | none => rw [hl] at hr; exact absurd h3 (hr h h1)
  | some l =>
    rw [hl] at hr
    simp only
    split
    · rename_i hu
      rcases hr with ⟨w, g1, g2, g3, g4, g5, g6⟩ | hs
      · have hsmall : ∀ u ∈ l, u.2 ≤ 1 := by
          intro u hu'
          rw [g6] at hu'
          obtain ⟨d, -, rfl⟩ := List.mem_map.1 hu'
          simp only [firstCount]; split <;> omega
        obtain ⟨r, e1, e2⟩ := dropAll_small l l hsmall (Nat.le_refl _)
        have er : r = [] := List.length_eq_zero_iff.1 (by omega)
        subst er
        refine ⟨none, by rw [e1]; simp, ?_⟩
        intro x hx hk
        have e := g4 x ((drop1_sub _ _ _).subset hx) hk
        have e' := g4 h h1 h3
        have hp : 0 < cnt (drop1 s.held a ⟨port, ty⟩) ⟨port, ty⟩ a := cnt_pos.2 ⟨x, hx, hk, by rw [e, ← e', h2]⟩
        rw [cnt_drop1_same hex, ← h2, e', g5] at hp
        omega
      · obtain ⟨m, hm⟩ := hs.all h h1 h3
        have := hs.spec _ hm
        simp only at this
        rw [h2, hu] at this; cases this
    · rename_i hu
      rcases hr with ⟨w, g1, g2, g3, g4, g5, g6⟩ | hs
      · exfalso
        apply hu
        rw [← h2, g4 h h1 h3]; exact g3
      · obtain ⟨n, hm⟩ := hs.all h h1 h3
        rw [h2] at hm
        obtain ⟨xs, ys, e1, e2⟩ := findUser_spec hs.nodup hm 0
        rw [e2]
        simp only [Nat.zero_add]
        by_cases hn : n ≤ 1
        · rw [if_pos hn]
          split
          · rename_i hlen
            refine ⟨none, rfl, ?_⟩
            rw [e1] at hlen
            simp only [List.length_append, List.length_cons] at hlen
            have hx : xs = [] := List.length_eq_zero_iff.1 (by omega)
            have hy : ys = [] := List.length_eq_zero_iff.1 (by omega)
            subst hx hy
            intro x hx hk
            obtain ⟨m, hm'⟩ := hs.all x ((drop1_sub _ _ _).subset hx) hk
            rw [e1] at hm'
            simp only [List.nil_append, List.mem_singleton, Prod.mk.injEq] at hm'
            have hp : 0 < cnt (drop1 s.held a ⟨port, ty⟩) ⟨port, ty⟩ a := cnt_pos.2 ⟨x, hx, hk, hm'.1⟩
            rw [cnt_drop1_same hex] at hp
            by_cases h0 : n = 0
            · rw [hs.one _ hm h0] at hp; omega
            · rw [hs.many _ hm h0] at hp; simp only at hp; omega
          · rename_i hlen
            refine ⟨_, rfl, .inr (hs.remove hex e1 hn (by rw [e1]; exact swapRemove_perm _ _ _) ?_)⟩
            intro e
            have := swapRemove_length hs.ne xs.length
            rw [e] at this
            have h0 : l.length ≠ 0 := fun e => hs.ne (List.length_eq_zero_iff.1 e)
            simp at this; omega
        · rw [if_neg hn]
          refine ⟨_, rfl, .inr ?_⟩
          have : l.set xs.length (a, n - 1) = xs ++ (a, n - 1) :: ys := by
            have := List.set_append_right (s := xs) (t := (a, n) :: ys) xs.length (a, n - 1) (Nat.le_refl _)
            rw [e1]; exact this.trans (by simp)
          rw [this]
          exact hs.lower hex e1 (by omega)

theorem Inv.step_release {devs : List Addr} {s : Sys} (hi : Inv devs s) {a : Addr} {port : Nat} {ty : PType}
    (hc : Clean s.held (.release a port ty)) : Inv devs (step devs s (.release a port ty)) := by
  by_cases ha : a ∈ devs
  · obtain ⟨o, h1, h2⟩ := hi.release_ok ha hc
    simp only [step, call, h1, heldAfter]
    refine ⟨fun k => ?_, hi.next, hi.excl.sublist List.eraseP_sublist,
      fun h hm => hi.dev h (List.eraseP_sublist.subset hm)⟩
    by_cases hk : k = ⟨port, ty⟩
    · subst hk; simp only [updK_same]; exact h2
    · simp only [updK_ne _ _ hk]; exact (hi.rep k).drop_ne hc hk
  · simp only [step, call, Ports.release]
    rw [if_pos (by simpa using ha)]
    exact hi

theorem Inv.init (devs : List Addr) : Inv devs .init :=
  ⟨fun _ h hm => by simp [Sys.init] at hm, fun _ => ⟨by simp [Sys.init, Net.init, ephStart, ephEnd], Nat.le_refl _⟩,
    List.Pairwise.nil, fun h hm => by simp [Sys.init] at hm⟩

theorem Reach.inv {devs : List Addr} {s : Sys} (h : Reach devs s) : Inv devs s := by
  induction h with
  | init => exact .init devs
  | @step s op _ hc ih =>
    cases op with
    | reserve => exact ih.step_reserve hc
    | release => exact ih.step_release hc

/-! ## C31: one owner -/

/-- **C31, partial.**  After any history of clean calls no two reservations that are held conflict: of two that overlap
both allow sharing. -/
theorem exclusive_partial {devs : List Addr} {s : Sys} (h : Reach devs s) : s.held.Pairwise (fun a b => ¬ Conflict a b) :=
  h.inv.excl

/-- **C31, partial.**  A reservation that conflicts with one that is held is refused, and changes nothing. -/
theorem conflict_refused_partial {devs : List Addr} {s : Sys} (hr : Reach devs s) {a : Addr} {port : Nat} {ty : PType} {reb : Bool}
    (ha : a ∈ devs) (hp : port ≠ 0) (hc : Clean s.held (.reserve a port ty reb))
    (hx : ∃ h ∈ s.held, Conflict ⟨a, ⟨port, ty⟩, reb⟩ h) :
    reserve devs s.net a port ty reb = (s.net, .err .EADDRINUSE) := by
  obtain ⟨h, h1, h2⟩ := hx
  have hrep := hr.inv.rep ⟨port, ty⟩
  simp only [reserve]
  rw [if_neg (by simpa using ha), if_neg hp]
  cases hl : s.net.used ⟨port, ty⟩ with
  | none => rw [hl] at hrep; exact absurd h2.1.1.symm (hrep h h1)
  | some l =>
    rw [hl] at hrep
    simp only
    split
    · rfl
    · rename_i hu
      have hu : a.unspec = false := by simpa using hu
      rcases hc with e | e | ⟨hc1, hc2⟩
      · exact absurd e hp
      · rw [hu] at e; cases e
      cases hl' : addUser a l with
      | none => rfl
      | some l' => exact absurd h2 ((hrep.reserve_one ha hc1 hc2 hl' hu).2 h h1)

/-- **C31.**  A refusal has a reason: a reservation of a given port fails with `EADDRINUSE` only if it overlaps one that is
held. -/
theorem refused_overlap {devs : List Addr} {s : Sys} (hr : Reach devs s) {a : Addr} {port : Nat} {ty : PType} {reb : Bool}
    (ha : a ∈ devs) (hp : port ≠ 0) (hn : ∀ h ∈ s.held, ¬ Overlap ⟨a, ⟨port, ty⟩, reb⟩ h) :
    (reserve devs s.net a port ty reb).2 = .ok port := by
  have hrep := hr.inv.rep ⟨port, ty⟩
  simp only [reserve]
  rw [if_neg (by simpa using ha), if_neg hp]
  cases hl : s.net.used ⟨port, ty⟩ with
  | none => simp only; split <;> rfl
  | some l =>
    rw [hl] at hrep
    simp only
    split
    · rename_i hu
      exfalso
      rcases hrep with ⟨w, g1, g2, -⟩ | hs
      · exact hn w g1 ⟨g2.symm, .inr (.inl hu)⟩
      · cases hl : l with
        | nil => exact hs.ne hl
        | cons u us =>
          obtain ⟨x, g1, g2, -⟩ := cnt_pos.1 (hs.pos u (by rw [hl]; simp))
          exact hn x g1 ⟨g2.symm, .inr (.inl hu)⟩
    · cases hl' : addUser a l with
      | some l' => rfl
      | none =>
        obtain ⟨h, h1, h2⟩ := hrep.refuse_one (reb := reb) hl'
        exact absurd h2.1 (hn h h1)

/-- **C31.**  An address that is not one of the machine's is refused. -/
theorem foreign_refused {devs : List Addr} {n : Net} {a : Addr} {port : Nat} {ty : PType} {reb : Bool} (ha : a ∉ devs) :
    reserve devs n a port ty reb = (n, .err .EADDRNOTAVAIL) ∧ release devs n a port ty = (n, .err .EADDRNOTAVAIL) := by
  simp [reserve, release, ha]

/-! ## C32: release -/

/-- **C32, partial.**  Releasing a reservation that is held succeeds and removes that one and no other. -/
theorem release_partial {devs : List Addr} {s : Sys} (hr : Reach devs s) {a : Addr} {port : Nat} {ty : PType}
    (hc : ∃ h ∈ s.held, h.addr = a ∧ h.key = ⟨port, ty⟩) :
    (release devs s.net a port ty).2 = .ok 0 ∧
      ∃ h xs ys, h.addr = a ∧ h.key = ⟨port, ty⟩ ∧ s.held = xs ++ h :: ys ∧
        (step devs s (.release a port ty)).held = xs ++ ys ∧
        Reach devs (step devs s (.release a port ty)) := by
  obtain ⟨h, h1, h2, h3⟩ := hc
  have ha : a ∈ devs := h2 ▸ hr.inv.dev h h1
  obtain ⟨o, e1, e2⟩ := hr.inv.release_ok ha ⟨h, h1, h2, h3⟩
  refine ⟨by rw [e1], ?_⟩
  obtain ⟨x, xs, ys, -, g2, g3, g4⟩ := List.exists_of_eraseP (p := fun h : Hold => h.addr == a && h.key == ⟨port, ty⟩) h1
    (by simp [h2, h3])
  have e : x.addr = a ∧ x.key = ⟨port, ty⟩ := by simpa using g2
  refine ⟨x, xs, ys, e.1, e.2, g3, ?_, hr.step ⟨h, h1, h2, h3⟩⟩
  simp only [step, call, e1, heldAfter]
  exact g4

/-- **C32, partial.**  Releasing a port on which nothing is held fails and changes nothing. -/
theorem release_unheld_partial {devs : List Addr} {s : Sys} (hr : Reach devs s) {a : Addr} {port : Nat} {ty : PType}
    (ha : a ∈ devs) (hn : ∀ h ∈ s.held, h.key ≠ ⟨port, ty⟩) :
    release devs s.net a port ty = (s.net, .err .EINVAL) := by
  have hrep := hr.inv.rep ⟨port, ty⟩
  simp only [release]
  rw [if_neg (by simpa using ha)]
  cases hl : s.net.used ⟨port, ty⟩ with
  | none => rfl
  | some l =>
    exfalso
    rw [hl] at hrep
    rcases hrep with ⟨w, g1, g2, -⟩ | hs
    · exact hn w g1 g2
    · cases hl : l with
      | nil => exact hs.ne hl
      | cons u us =>
        obtain ⟨x, g1, g2, -⟩ := cnt_pos.1 (hs.pos u (by rw [hl]; simp))
        exact hn x g1 g2

/-- **C32, partial.**  When the only holder of a port releases it, it can be reserved again, for any address and in any
mode. -/
theorem release_reserve_partial {devs : List Addr} {s : Sys} (hr : Reach devs s) {a b : Addr} {port : Nat} {ty : PType}
    {reb : Bool} (hc : ∃ h ∈ s.held, h.addr = a ∧ h.key = ⟨port, ty⟩)
    (h1 : s.held.countP (fun h => h.key == ⟨port, ty⟩) = 1) (hp : port ≠ 0) (hb : b ∈ devs) :
    (reserve devs (release devs s.net a port ty).1 b port ty reb).2 = .ok port := by
  obtain ⟨-, h, xs, ys, e1, e2, e3, e4, e5⟩ := release_partial hr hc
  refine refused_overlap e5 hb hp ?_
  rw [e4]
  intro x hx ho
  have hk : x.key = ⟨port, ty⟩ := ho.1.symm
  have : 0 < (xs ++ ys).countP (fun h => h.key == ⟨port, ty⟩) := List.countP_pos_iff.2 ⟨x, hx, by simp [hk]⟩
  rw [e3] at h1
  simp only [List.countP_append, List.countP_cons] at h1 this
  rw [if_pos (by simp [e2])] at h1
  omega

/-- **C32, partial.**  A release of a shared reservation leaves the others: the port stays refused to a caller that does not
share. -/
theorem release_keeps_partial {devs : List Addr} {s : Sys} (hr : Reach devs s) {a : Addr} {port : Nat} {ty : PType} {h : Hold}
    (hc : ∃ h ∈ s.held, h.addr = a ∧ h.key = ⟨port, ty⟩) (hm : h ∈ s.held) (hk : ¬ (h.addr = a ∧ h.key = ⟨port, ty⟩)) :
    h ∈ (step devs s (.release a port ty)).held := by
  obtain ⟨-, x, xs, ys, e1, e2, e3, e4, -⟩ := release_partial hr hc
  rw [e4]; rw [e3] at hm
  simp only [List.mem_append, List.mem_cons] at hm ⊢
  rcases hm with hm | rfl | hm
  · exact .inl hm
  · exact absurd ⟨e1, e2⟩ hk
  · exact .inr hm

/-! ## C33: ephemeral ports -/

/-- The table has room for this address. -/
def RoomIn (n : Net) (a : Addr) (k : Key) : Prop :=
  if a.unspec then n.used k = none else ∀ l, n.used k = some l → ∀ u ∈ l, u.1 ≠ a

theorem initPort_isSome {devs : List Addr} {n : Net} {a : Addr} {k : Key} {reb : Bool} :
    (initPort devs (n.used k) a reb).isSome ↔ RoomIn n a k := by
  simp only [initPort, RoomIn]
  split
  · cases n.used k <;> simp
  · cases n.used k with
    | none => simp
    | some l =>
      simp only
      split
      · rename_i h
        obtain ⟨u, h1, h2⟩ := List.any_eq_true.1 h
        simp only [Option.isSome_none, Bool.false_eq_true, Option.some.injEq, false_iff]
        exact fun e => e l rfl u h1 (by simpa using h2)
      · rename_i h
        simp only [Option.isSome_some, true_iff, Option.some.injEq]
        rintro l' rfl u hu e
        exact h (List.any_eq_true.2 ⟨u, hu, by simp [e]⟩)

/-- **C33.**  Whatever the table and the counter: a reservation of port 0 gives a port of the range on which the table has
room for the address, or fails because there is none; the counter stays in the range. -/
theorem ephemeral_table {devs : List Addr} {n : Net} {a : Addr} {ty : PType} {reb : Bool} (ha : a ∈ devs)
    (h1 : ephStart ≤ n.next ty) (h2 : n.next ty ≤ ephEnd) :
    (∃ q, ephStart ≤ q ∧ q ≤ ephEnd ∧ RoomIn n a ⟨swap16 q, ty⟩ ∧
        (reserve devs n a 0 ty reb).2 = .ok (swap16 q) ∧
        (∀ k, k ≠ ⟨swap16 q, ty⟩ → (reserve devs n a 0 ty reb).1.used k = n.used k) ∧
        ephStart ≤ (reserve devs n a 0 ty reb).1.next ty ∧ (reserve devs n a 0 ty reb).1.next ty ≤ ephEnd) ∨
      ((∀ q, ephStart ≤ q → q ≤ ephEnd → ¬ RoomIn n a ⟨swap16 q, ty⟩) ∧
        reserve devs n a 0 ty reb = (n, .err .EADDRINUSE)) := by
  have he : reserve devs n a 0 ty reb = ephemeral devs n a ty reb := by
    unfold reserve; rw [if_neg (by simpa using ha), if_pos rfl]
  rw [he]
  unfold ephemeral
  rw [if_neg (by simpa using ha)]
  cases hf : (candidates (n.next ty)).find? (fun q => (initPort devs (n.used ⟨swap16 q, ty⟩) a reb).isSome) with
  | none =>
    refine .inr ⟨fun q hq1 hq2 hroom => ?_, rfl⟩
    rw [List.find?_eq_none] at hf
    exact hf q ((candidates_mem h1 h2).2 ⟨hq1, hq2⟩) (initPort_isSome.2 hroom)
  | some q =>
    have hm := (candidates_mem h1 h2).1 (List.mem_of_find?_eq_some hf)
    have hs := List.find?_some hf
    refine .inl ⟨q, hm.1, hm.2, initPort_isSome.1 hs, rfl, fun k hk => updK_ne _ _ hk, ?_⟩
    simp only [updK_same]
    exact decNext_range h2

/-- **C33, partial.**  After any history of clean calls a reservation of port 0 gives a port of the range that nobody holds
for an overlapping address, or fails because every port of the range is held for such an address. -/
theorem ephemeral_partial {devs : List Addr} {s : Sys} (hr : Reach devs s) {a : Addr} {ty : PType} {reb : Bool} (ha : a ∈ devs) :
    (∃ q, ephStart ≤ q ∧ q ≤ ephEnd ∧ (reserve devs s.net a 0 ty reb).2 = .ok (swap16 q) ∧
        ∀ h ∈ s.held, ¬ Overlap ⟨a, ⟨swap16 q, ty⟩, reb⟩ h) ∨
      (reserve devs s.net a 0 ty reb = (s.net, .err .EADDRINUSE) ∧
        ∀ q, ephStart ≤ q → q ≤ ephEnd → ∃ h ∈ s.held, Overlap ⟨a, ⟨swap16 q, ty⟩, reb⟩ h) := by
  have hi := hr.inv
  rcases ephemeral_table (reb := reb) ha (hi.next ty).1 (hi.next ty).2 with ⟨q, h1, h2, h3, h4, -⟩ | ⟨h1, h2⟩
  · obtain ⟨l, hl⟩ := Option.isSome_iff_exists.1 ((initPort_isSome (devs := devs) (reb := reb)).2 h3)
    exact .inl ⟨q, h1, h2, h4, ((hi.rep _).init ha hl).2⟩
  · refine .inr ⟨h2, fun q hq1 hq2 => ?_⟩
    have := h1 q hq1 hq2
    rw [← initPort_isSome (devs := devs) (reb := reb), Option.isSome_iff_ne_none, Classical.not_not] at this
    exact (hi.rep _).init_none this

/-- Ports of the range stay distinct in network order. -/
theorem swap16_inj {p q : Nat} (hp : p < 65536) (hq : q < 65536) (h : swap16 p = swap16 q) : p = q := by
  unfold swap16 at h; omega

/-- **C33, partial.**  Two ephemeral reservations held at once for the same address are different ports. -/
theorem ephemeral_distinct_partial {devs : List Addr} {s : Sys} (hr : Reach devs s) {a : Addr} {ty : PType} {reb reb' : Bool}
    {p p' : Nat} (hm : ⟨a, ⟨p, ty⟩, reb⟩ ∈ s.held) (h : (reserve devs s.net a 0 ty reb').2 = .ok p') : p' ≠ p := by
  have ha : a ∈ devs := hr.inv.dev _ hm
  rcases ephemeral_partial (reb := reb') hr (ty := ty) ha with ⟨q, -, -, h3, h4⟩ | ⟨h1, -⟩
  · rw [h3] at h
    rintro rfl
    have : swap16 q = p' := by
      have h := Ret.ok.inj h
      exact Int.ofNat.inj h
    exact h4 _ hm ⟨by simp only [this], .inl rfl⟩
  · rw [h1] at h; cases h

/-! ## Examples -/

def any4 : Addr := ⟨false, 0⟩
def loop4 : Addr := ⟨false, 0x7f000001⟩
def eth4 : Addr := ⟨false, 0x0a000001⟩
def tcp4 : PType := ⟨false, true⟩
def devices : List Addr := [any4, loop4, eth4]

def after (devs : List Addr) (ops : List Op) : Sys := ops.foldl (step devs) .init

def CleanAll (devs : List Addr) : Sys → List Op → Prop
  | _, [] => True
  | s, op :: ops => Clean s.held op ∧ CleanAll devs (step devs s op) ops

theorem reach_foldl {devs : List Addr} {s : Sys} (h : Reach devs s) (ops : List Op) (hc : CleanAll devs s ops) :
    Reach devs (ops.foldl (step devs) s) := by
  induction ops generalizing s with
  | nil => exact h
  | cons op ops ih => exact ih (h.step hc.1) hc.2

instance (held : List Hold) (op : Op) : Decidable (Clean held op) := by
  cases op <;> (simp only [Clean]; infer_instance)

instance decCleanAll (devs : List Addr) : ∀ (s : Sys) (ops : List Op), Decidable (CleanAll devs s ops)
  | _, [] => .isTrue trivial
  | s, op :: ops => @instDecidableAnd _ _ inferInstance (decCleanAll devs (step devs s op) ops)

/-- A history with an exclusive owner, two sharers, a wildcard and an ephemeral port. -/
def demoOps : List Op :=
  [.reserve loop4 80 tcp4 false, .reserve eth4 443 tcp4 true, .reserve eth4 443 tcp4 true, .reserve any4 22 tcp4 false,
   .reserve eth4 0 tcp4 false, .release eth4 443 tcp4]

/-- The theorems apply to it: four reservations are held; port 80 is refused to a second owner, can be released, and port
22 is refused for the loopback address. -/
example : Reach devices (after devices demoOps) := reach_foldl .init _ (by decide +kernel)

example : (after devices demoOps).held.length = 4 ∧
    (reserve devices (after devices demoOps).net loop4 80 tcp4 false).2 = .err .EADDRINUSE ∧
    (reserve devices (after devices demoOps).net loop4 22 tcp4 true).2 = .err .EADDRINUSE ∧
    (release devices (after devices demoOps).net loop4 80 tcp4).2 = .ok 0 ∧
    (reserve devices (after devices demoOps).net loop4 0 tcp4 false).2 = .ok (swap16 60998) := by decide +kernel

/-! ## Violations -/

/-- Of the results of calls in a row. -/
def results (devs : List Addr) : Net → List Op → List Ret
  | _, [] => []
  | n, op :: ops => (call devs n op).2 :: results devs (call devs n op).1 ops

/-- **C31 fails, C32 fails.**  While a port is held for one address, a reservation for another succeeds but is not
recorded: a second exclusive owner gets it as well, and releasing it aborts the program. -/
theorem unrecorded_violated :
    results devices .init [.reserve eth4 80 tcp4 false, .reserve loop4 80 tcp4 false, .reserve loop4 80 tcp4 false,
      .release loop4 80 tcp4] = [.ok 80, .ok 80, .ok 80, .panic] ∧
    ∃ a ∈ (after devices [.reserve eth4 80 tcp4 false, .reserve loop4 80 tcp4 false, .reserve loop4 80 tcp4 false]).held,
      Conflict a a ∧ (after devices [.reserve eth4 80 tcp4 false, .reserve loop4 80 tcp4 false,
        .reserve loop4 80 tcp4 false]).held.count a = 2 := by decide +kernel

/-- **C31 fails.**  A caller that does not share gets a port that another shares. -/
theorem join_violated :
    results devices .init [.reserve loop4 80 tcp4 true, .reserve loop4 80 tcp4 false] = [.ok 80, .ok 80] ∧
    ¬ (after devices [.reserve loop4 80 tcp4 true, .reserve loop4 80 tcp4 false]).held.Pairwise
        (fun a b => ¬ Conflict a b) := by decide +kernel

/-- **C32 fails.**  A sharer of one address joins a shared reservation for all; when the latter is released, the entry of
a different address is left, so that the first can no longer release (the program aborts) and the port stays
refused for all addresses. -/
theorem release_all_violated :
    results [loop4, eth4, any4] .init [.reserve any4 80 tcp4 true, .reserve loop4 80 tcp4 true, .release any4 80 tcp4,
      .release loop4 80 tcp4, .reserve any4 80 tcp4 true] = [.ok 80, .ok 80, .ok 0, .panic, .err .EADDRINUSE] := by
  decide +kernel

/-- **C33 fails.**  An ephemeral port that is already held for the same address. -/
theorem ephemeral_violated :
    results devices .init [.reserve eth4 (swap16 60999) tcp4 false, .reserve loop4 (swap16 60999) tcp4 false,
      .reserve loop4 0 tcp4 false] = [.ok (swap16 60999), .ok (swap16 60999), .ok (swap16 60999)] := by decide +kernel

/-- **C31 and C32 fail through `bind`.**  A socket whose `bind` was refused releases, when it is closed, the port of the
socket that owns it; a third socket then gets the port while the first is still bound. -/
theorem failed_bind_violated :
    let s : Sock := { ty := tcp4, reuse := false }
    let (n1, s1, r1) := bind devices .init s loop4 80 none
    let (n2, s2, r2) := bind devices n1 s loop4 80 none
    let (n3, _, r3) := closeSock devices n2 s2
    let (_, s4, r4) := bind devices n3 s loop4 80 none
    r1 = .ok 0 ∧ r2 = .err .EADDRINUSE ∧ r3 = .ok 0 ∧ r4 = .ok 0 ∧
      s1.localaddr = some (loop4, 80) ∧ s4.localaddr = some (loop4, 80) := by decide +kernel

end Verif.Ports
