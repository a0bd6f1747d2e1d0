import Verif.NameConcWalk
import Verif.NameConcAll

/-!
The relation between a state of the concurrent model and a state of the specification, for disciplined schedules.

Calls take effect in the specification at one step each: creation when the inode number is taken, unlink when
the link count goes down, rmdir when the directory is found empty, and so on.  Until its last step the concurrent model
lags behind in known ways (`Sig`): entries to be added or removed, a link counted too early, inodes to be stored or to be
reaped.
-/

namespace Verif.NameConc
open Verif.Path Verif.Fs

/-- What the thread has yet to do (or has already done) about one inode, compared with the specification. -/
structure Sig where
  /-- to be stored -/
  fresh : Option Inode := none
  /-- to be reaped; `true`: with a host file -/
  doom : Option Bool := none
  /-- entry to be added in this directory -/
  add : Option (Name × Nat) := none
  /-- entry to be removed from this directory -/
  rm : Option Name := none
  /-- one link counted already -/
  up : Bool := false
  /-- host file and descriptor to be made -/
  opn : Bool := false
  /-- descriptor given up but not yet counted -/
  cls : Bool := false
  deriving DecidableEq

def New.isFile : New → Bool
  | .file _ => true
  | _ => false

def After.opens : After → Nat → Bool
  | .openObj _ k, i => decide (k = i)
  | _, _ => false

def sig : Pc → Nat → Sig
  | .walk _ _ _ _ (.linkNew k _), i => { up := decide (k = i) }
  | .enter p par new num, i =>
    { fresh := if num = i then some (new.ino par num) else none
      add := if par = i then p.getLast?.map (fun n => (n, num)) else none
      opn := new.isFile && decide (num = i) }
  | .store _ par new num, i =>
    { fresh := if num = i then some (new.ino par num) else none
      opn := new.isFile && decide (num = i) }
  | .log _ k, i => { opn := k.opens i }
  | .logw _ _ _ k, i => { opn := k.opens i }
  | .openObj _ k, i => { opn := decide (k = i) }
  | .linkEnter _ _ k _, i => { up := decide (k = i) }
  | .linkUndo _ k _, i => { up := decide (k = i) }
  | .unlinkRemove p k par kind zero, i =>
    { rm := if par = i then p.getLast? else none
      doom := if zero ∧ k = i then some (decide (kind = .file)) else none }
  | .unlinkReap _ k _ kind, i => { doom := if k = i then some (decide (kind = .file)) else none }
  | .rmdirRemove p k par rm, i =>
    { rm := if par = i then p.getLast? else none
      doom := if rm ∧ k = i then some false else none }
  | .rmdirReap k _, i => { doom := if k = i then some false else none }
  | .closeDec k, i => { cls := decide (k = i) }
  | .closeReap k kind, i => { doom := if k = i then some (decide (kind = .file)) else none }
  | _, _ => {}

/-- A number of threads below `N`. -/
def tot (N : Nat) (σ : Nat → Sig) (w : Sig → Bool) : Nat := sumTo (fun t => (w (σ t)).toNat) N

theorem tot_upd {N t : Nat} (ht : t < N) (σ : Nat → Sig) (z : Sig) (w : Sig → Bool) :
    tot N (upd σ t z) w + (w (σ t)).toNat = tot N σ w + (w z).toNat := by
  have := sumTo_upd (f := fun u => (w (upd σ t z u)).toNat) (g := fun u => (w (σ u)).toNat) ht
    (fun j hj => by simp [hj])
  simpa [tot] using this

theorem tot_zero {N : Nat} {σ : Nat → Sig} {w : Sig → Bool} (h : ∀ t, w (σ t) = false) : tot N σ w = 0 :=
  sumTo_zero (fun k _ => by simp [h k])

theorem tot_zero' {N : Nat} {σ : Nat → Sig} {w : Sig → Bool} {t : Nat} (h : tot N σ w = 0) (ht : t < N) : w (σ t) = false := by
  have := sumTo_le (f := fun u => (w (σ u)).toNat) ht
  rw [show sumTo (fun u => (w (σ u)).toNat) N = 0 from h] at this
  cases hw : w (σ t) <;> simp [hw] at this ⊢

theorem tot_one {N : Nat} {σ : Nat → Sig} {w : Sig → Bool} {t : Nat} (ht : t < N) (h1 : w (σ t) = true)
    (h : ∀ u, u ≠ t → w (σ u) = false) : tot N σ w = 1 := by
  have := tot_upd ht σ {} w
  have hz : tot N (upd σ t {}) (fun z => w z && decide (z ≠ {})) = 0 := by
    refine tot_zero (fun u => ?_)
    by_cases e : u = t
    · subst e; simp
    · simp [e, h u e]
  cases h0 : w {} with
  | false =>
    rw [h1, h0] at this
    have hz : tot N (upd σ t {}) w = 0 := tot_zero (fun u => by
      by_cases e : u = t
      · subst e; simp [h0]
      · simp [e, h u e])
    rw [hz] at this; simpa using this.symm
  | true =>
    -- then `w` also counts threads at rest; the sum has one nonzero term all the same
    have e1 := sumTo_upd (f := fun u => (w (σ u)).toNat) (g := fun u => if u = t then 0 else (w (σ u)).toNat) ht
      (fun j hj => by simp [hj])
    have e2 : sumTo (fun u => if u = t then 0 else (w (σ u)).toNat) N = 0 := sumTo_zero (fun u _ => by
      by_cases e : u = t
      · simp [e]
      · simp [e, h u e])
    simp only [if_true, e2, h1] at e1
    simpa [tot] using e1

def Sig.adds (z : Sig) : Bool := z.add.isSome
def Sig.rms (z : Sig) : Bool := z.rm.isSome

/-- An inode of the concurrent model and its counterpart in the specification. -/
structure Same (N : Nat) (σ : Nat → Sig) (x y : Inode) : Prop where
  kind : x.kind = y.kind
  mode : x.mode = y.mode
  size : x.size = y.size
  ref : x.ref = y.ref
  link : x.link + tot N σ Sig.adds = y.link + tot N σ Sig.up + tot N σ Sig.rms
  dlink : y.kind = .dir → x.link + y.ents.length = y.link + x.ents.length
  nodup : (x.ents.map Prod.fst).Nodup
  mem : ∀ n k, (n, k) ∈ y.ents ↔ ((n, k) ∈ x.ents ∧ ∀ t, (σ t).rm ≠ some n) ∨ ∃ t, (σ t).add = some (n, k)
  addNew : ∀ t n k, (σ t).add = some (n, k) → entGet x.ents n = none
  rmOld : ∀ t n, (σ t).rm = some n → ∃ k, entGet x.ents n = some k

/-- All that is said of one inode number. -/
structure InoRel (N : Nat) (σ : Nat → Sig) (x y : Option Inode) (fo fo' : Option Nat) (dk dk' : Option (List UInt8))
    (h h' : Nat) : Prop where
  fresh : ∀ t nd, (σ t).fresh = some nd → x = none ∧ y = some nd
  doom : ∀ t b, (σ t).doom = some b → (∃ nd, x = some nd) ∧ y = none ∧ fo = none ∧ fo' = none ∧ dk' = none ∧
    (b = true → dk ≠ none) ∧ (b = false → dk = none)
  doom1 : ∀ t u b b', (σ t).doom = some b → (σ u).doom = some b' → t = u
  gone : y = none → (∀ t, (σ t).doom = none) → x = none
  there : ∀ nd', y = some nd' → (∀ t, (σ t).fresh = none) → ∃ nd, x = some nd ∧ Same N σ nd nd'
  opn : ∀ t, (σ t).opn = true → fo = none ∧ dk = none ∧ fo' = some 0 ∧ dk' = some [] ∧ h' = 1 ∧
    ∃ nd', y = some nd' ∧ nd'.kind = .file ∧ nd'.link = 1
  data : (∀ t, (σ t).opn = false ∧ (σ t).doom = none) → fo = fo' ∧ dk = dk'
  held : h' = h + tot N σ Sig.opn + tot N σ Sig.cls

/-! ## Where the threads are -/

/-- What a creation returns. -/
def New.out : New → Nat → Out
  | .file _, num => .opened num 0
  | _, _ => .ret (.ok 0)

/-- The call makes `new` at `p` if nothing is there. -/
def Makes (c : Call) (p : List Name) (new : New) : Prop :=
  (∃ m, c = .mkdir p m ∧ new = .dir m ∧ saneMode m = true) ∨
  (∃ m dev, c = .mknod p m dev ∧ new = .chr m dev ∧ saneMode m = true ∧ m &&& sIFCHR ≠ 0) ∨
  (∃ fl m, c = .open p fl m ∧ new = .file m ∧ fl &&& oCREAT ≠ 0 ∧ fl &&& sIFCHR ≠ sIFCHR ∧ saneMode m = true)

/-- The path leads to something that is not a directory. -/
structure Plain (g : Fs) (p : List Name) (i : Nat) : Prop where
  leads : Leads g p i
  plain : ∃ nd, g.inodes i = some nd ∧ nd.isDir = false

/-- The directory is there and writable. -/
structure Writable (g : Fs) (i : Nat) : Prop where
  ex : ∃ nd, g.inodes i = some nd ∧ nd.isDir = true ∧ nd.mode &&& sIWALL ≠ 0

def GoalOk (g : Fs) (c : Call) (p : List Name) : Goal → Prop
  | .mkdir m => c = .mkdir p m
  | .mknod m dev => c = .mknod p m dev
  | .open fl m => c = .open p fl m
  | .linkOld new => c = .link p new ∧ new ≠ []
  | .linkNew i old => c = .link old p ∧ p ≠ [] ∧ Plain g old i
  | .unlink => c = .unlink p
  | .rmdir => c = .rmdir p
  | .renameOld new => c = .rename p new
  | .renameNew i par old => c = .rename old p ∧ g.walk old = some (some i, some par)
  | .stat => c = .stat p
  | .chmod m => c = .chmod p m

def AfterOk (g : Fs) (c : Call) (o : Option Out) : After → Prop
  | .ret r => o = some (.ret r)
  | .openObj p i => o = some (.opened i 0) ∧ p ∈ c.changes ∧ Leads g p i
  | .dom _ _ => o = some (.ret (.ok 0))

/-- What a thread at this place relies on: `g` is the file system of the specification, `o` the result if the call has taken
effect. -/
def TI (g : Fs) (c : Call) (o : Option Out) : Pc → Prop
  | .idle => False
  | .walk p rest cur prev gl => o = none ∧ (∃ done, p = done ++ rest ∧ g.walk done = some (cur, prev)) ∧ GoalOk g c p gl
  | .alloc p par new => o = none ∧ Makes c p new ∧ g.walk p = some (none, some par)
  | .enter p par new num => o = some (new.out num) ∧ p ∈ c.changes ∧ g.walk p = some (some num, some par) ∧ par ≠ num
  | .store p par new num => o = some (new.out num) ∧ p ∈ c.changes ∧ g.walk p = some (some num, some par) ∧ par ≠ num
  | .log _ k => AfterOk g c o k
  | .logw _ _ _ k => AfterOk g c o k
  | .openObj p i => AfterOk g c o (.openObj p i)
  | .get p i => o = none ∧ c = .stat p ∧ Leads g p i
  | .openGet p i fl => o = none ∧ (∃ m, c = .open p fl m) ∧ Leads g p i
  | .chmodDo p i m => o = none ∧ c = .chmod p m ∧ m &&& sIRWXA = m ∧ Leads g p i
  | .linkInc old new i => o = none ∧ c = .link old new ∧ new ≠ [] ∧ Leads g old i
  | .linkEnter old new i par => o = none ∧ c = .link old new ∧ Plain g old i ∧ g.walk new = some (none, some par)
  | .linkUndo old i e => o = some (.ret (.err e)) ∧ (∃ new, c = .link old new) ∧ Plain g old i
  | .unlinkDec p i par => o = none ∧ c = .unlink p ∧ g.walk p = some (some i, some par)
  | .unlinkRemove p _ par _ _ => o = some (.ret (.ok 0)) ∧ p ∈ c.changes ∧ g.walk p = some (none, some par) ∧ Writable g par
  | .unlinkReap _ _ _ _ => o = some (.ret (.ok 0))
  | .unlinkDom _ _ _ _ => o = some (.ret (.ok 0))
  | .rmdirPar p i par => o = none ∧ c = .rmdir p ∧ g.walk p = some (some i, some par)
  | .rmdirNode p i par => o = none ∧ c = .rmdir p ∧ g.walk p = some (some i, some par) ∧ Writable g par
  | .rmdirRemove p _ par _ => o = some (.ret (.ok 0)) ∧ p ∈ c.changes ∧ g.walk p = some (none, some par) ∧ Writable g par
  | .rmdirReap _ _ => o = some (.ret (.ok 0))
  | .renameEdit old new i par => o = none ∧ c = .rename old new ∧ g.walk old = some (some i, some par) ∧
      ∃ x, g.walk new = some (x, some par)
  | .renameDom _ _ => o = some (.ret (.ok 0))
  | .closeDec i => o = none ∧ c = .close i
  | .closeReap _ _ => o = some (.ret (.ok 0))

/-- The whole relation. -/
structure Rel (N : Nat) (s : State) (A : Abs) : Prop where
  alive : s.dead = false
  inv : FsInv A.fs A.held
  frs : Fresh s
  idle : ∀ t, N ≤ t → s.pc t = .idle
  next : s.fs.next = A.fs.next
  call : ∀ t, s.call t = (A.pend t).map Prod.fst
  apart : ∀ t u c c', t ≠ u → s.call t = some c → s.call u = some c' → Apart c c'
  good : ∀ t c, s.call t = some c → ∀ p ∈ c.names, GoodPath p
  rest : ∀ t, A.pend t = none → s.pc t = .idle
  thr : ∀ t c o, A.pend t = some (c, o) → TI A.fs c o (s.pc t)
  ino : ∀ i, InoRel N (fun t => sig (s.pc t) i) (s.fs.inodes i) (A.fs.inodes i) (s.fs.fobj i) (A.fs.fobj i)
    (s.fs.disk i) (A.fs.disk i) (s.held i) (A.held i)

/-! ## Threads whose names are left alone -/

theorem changes_names {c : Call} {p : List Name} (h : p ∈ c.changes) : p ∈ c.names := by
  cases c <;> simp only [Call.changes, Call.names] at h ⊢ <;> try exact h
  · split at h
    · cases h
    · exact h
  · simp only [List.mem_cons, List.not_mem_nil, or_false] at h ⊢; exact .inr h
  · cases h
  
theorem Makes.changes {c : Call} {p : List Name} {new : New} (h : Makes c p new) : p ∈ c.changes := by
  rcases h with ⟨m, rfl, -⟩ | ⟨m, dev, rfl, -⟩ | ⟨fl, m, rfl, -, h, -⟩
  · simp [Call.changes]
  · simp [Call.changes]
  · simp only [Call.changes, if_neg h]; simp

section
variable {g g' : Fs} {C : List (List Name)} (T : Tree g.inodes g.next) (hs : Stable g g' C)
include T hs

theorem Stable.leads {p : List Name} {i : Nat} (hp : GoodPath p) (hc : Clear C p) (h : Leads g p i) : Leads g' p i := by
  obtain ⟨⟨x, h⟩⟩ := h
  exact ⟨⟨x, (hs.walk T hp hc).trans h⟩⟩

theorem Stable.plain {p : List Name} {i : Nat} (hp : GoodPath p) (hc : Clear C p) (h : Plain g p i) : Plain g' p i := by
  obtain ⟨hl, nd, h1, h2⟩ := h
  obtain ⟨nd', e1, e2, -⟩ := hs.node p i nd hp hc hl h1
  exact ⟨hs.leads T hp hc hl, nd', e1, by rw [kind_dir e2]; exact h2⟩

omit T in
theorem Stable.writable {p : List Name} {x : Option Nat} {par : Nat} (hp : GoodPath p) (hc : Clear C p)
    (hw : g.walk p = some (x, some par)) (h : Writable g par) : Writable g' par := by
  obtain ⟨nd, h1, h2, h3⟩ := h
  obtain ⟨d, n, pd, rfl, hl, -⟩ := walk_par hw
  obtain ⟨nd', e1, e2, e3⟩ := hs.node d par nd (good_left hp) (hc.prefix (List.prefix_append _ _)) hl h1
  exact ⟨nd', e1, by rw [kind_dir e2]; exact h2, by rw [(e3 h2).1]; exact h3⟩

theorem TI.stable {c : Call} {o : Option Out} {q : Pc} (hg : ∀ p ∈ c.names, GoodPath p)
    (hc : ∀ p ∈ c.names, Clear C p) (h : TI g c o q) : TI g' c o q := by
  have W : ∀ {p r}, p ∈ c.names → g.walk p = some r → g'.walk p = some r := fun hp h => (hs.walk T (hg _ hp) (hc _ hp)).trans h
  have L : ∀ {p i}, p ∈ c.names → Leads g p i → Leads g' p i := fun hp h => hs.leads T (hg _ hp) (hc _ hp) h
  have P : ∀ {p i}, p ∈ c.names → Plain g p i → Plain g' p i := fun hp h => hs.plain T (hg _ hp) (hc _ hp) h
  have V : ∀ {p x par}, p ∈ c.names → g.walk p = some (x, some par) → Writable g par → Writable g' par :=
    fun hp h h' => hs.writable (hg _ hp) (hc _ hp) h h'
  have K : ∀ {k}, AfterOk g c o k → AfterOk g' c o k := by
    intro k h
    cases k with
    | ret => exact h
    | openObj p i => exact ⟨h.1, h.2.1, L (changes_names h.2.1) h.2.2⟩
    | dom => exact h
  cases q with
  | idle => exact h
  | walk p rest cur prev gl =>
    obtain ⟨h1, ⟨done, rfl, h2⟩, h3⟩ := h
    have hp : done ++ rest ∈ c.names := by
      cases gl <;> simp only [GoalOk] at h3
      case linkNew => obtain ⟨rfl, -⟩ := h3; simp [Call.names]
      case linkOld => obtain ⟨rfl, -⟩ := h3; simp [Call.names]
      case renameNew => obtain ⟨rfl, -⟩ := h3; simp [Call.names]
      all_goals (subst h3; simp [Call.names])
    refine ⟨h1, ⟨done, rfl, ?_⟩, ?_⟩
    · rw [hs.walk T (good_left (hg _ hp)) ((hc _ hp).prefix (List.prefix_append _ _))]; exact h2
    · cases gl <;> simp only [GoalOk] at h3 ⊢
      case linkNew => exact ⟨h3.1, h3.2.1, P (by rw [h3.1]; simp [Call.names]) h3.2.2⟩
      case renameNew => exact ⟨h3.1, W (by rw [h3.1]; simp [Call.names]) h3.2⟩
      all_goals exact h3
  | alloc p par new => exact ⟨h.1, h.2.1, W (changes_names h.2.1.changes) h.2.2⟩
  | enter => exact ⟨h.1, h.2.1, W (changes_names h.2.1) h.2.2.1, h.2.2.2⟩
  | store => exact ⟨h.1, h.2.1, W (changes_names h.2.1) h.2.2.1, h.2.2.2⟩
  | log => exact K h
  | logw => exact K h
  | openObj p i => exact K (k := .openObj p i) h
  | get => exact ⟨h.1, h.2.1, L (by rw [h.2.1]; simp [Call.names]) h.2.2⟩
  | openGet =>
    obtain ⟨h1, ⟨m, h2⟩, h3⟩ := h
    exact ⟨h1, ⟨m, h2⟩, L (by rw [h2]; simp [Call.names]) h3⟩
  | chmodDo => exact ⟨h.1, h.2.1, h.2.2.1, L (by rw [h.2.1]; simp [Call.names]) h.2.2.2⟩
  | linkInc => exact ⟨h.1, h.2.1, h.2.2.1, L (by rw [h.2.1]; simp [Call.names]) h.2.2.2⟩
  | linkEnter =>
    exact ⟨h.1, h.2.1, P (by rw [h.2.1]; simp [Call.names]) h.2.2.1, W (by rw [h.2.1]; simp [Call.names]) h.2.2.2⟩
  | linkUndo =>
    obtain ⟨h1, ⟨m, h2⟩, h3⟩ := h
    exact ⟨h1, ⟨m, h2⟩, P (by rw [h2]; simp [Call.names]) h3⟩
  | unlinkDec => exact ⟨h.1, h.2.1, W (by rw [h.2.1]; simp [Call.names]) h.2.2⟩
  | unlinkRemove => exact ⟨h.1, h.2.1, W (changes_names h.2.1) h.2.2.1, V (changes_names h.2.1) h.2.2.1 h.2.2.2⟩
  | unlinkReap => exact h
  | unlinkDom => exact h
  | rmdirPar => exact ⟨h.1, h.2.1, W (by rw [h.2.1]; simp [Call.names]) h.2.2⟩
  | rmdirNode =>
    exact ⟨h.1, h.2.1, W (by rw [h.2.1]; simp [Call.names]) h.2.2.1, V (by rw [h.2.1]; simp [Call.names]) h.2.2.1 h.2.2.2⟩
  | rmdirRemove => exact ⟨h.1, h.2.1, W (changes_names h.2.1) h.2.2.1, V (changes_names h.2.1) h.2.2.1 h.2.2.2⟩
  | rmdirReap => exact h
  | renameEdit =>
    obtain ⟨h1, h2, h3, x, h4⟩ := h
    exact ⟨h1, h2, W (by rw [h2]; simp [Call.names]) h3, x, W (by rw [h2]; simp [Call.names]) h4⟩
  | renameDom => exact h
  | closeDec => exact h
  | closeReap => exact h

end

end Verif.NameConc
