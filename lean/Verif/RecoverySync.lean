import Verif.RecoveryInv
import Verif.HistLemmas

/-! # Every call logs what it changes -/

namespace Verif.Recovery
open Verif.Path Verif.Fs Verif.Kernel

/-- Up to `f`, and except for the numbers in `D`, replaying the log on the snapshot gives what is in memory. -/
structure Pend (f : Nat → Inode → Inode) (b : Snap) (D : List Nat) (fs : Fs) : Prop where
  nosock : ∀ i nd, fs.inodes i = some nd → nd.isSock = false
  same : ∀ i, i ∉ D → (replay b.inodes fs.log i).map (f i) = (fs.inodes i).map (f i)
  next : fs.next ≤ maxNum b.next fs.log + 1

/-- `f` does not see the number of open descriptors. -/
def Blind (f : Nat → Inode → Inode) : Prop := ∀ (i : Nat) (nd : Inode) (r : Nat), f i { nd with ref := r } = f i nd

variable {f : Nat → Inode → Inode} {b : Snap} {D : List Nat} {fs : Fs}

theorem Pend.congr (h : Pend f b D fs) {fs' : Fs} (h1 : fs'.inodes = fs.inodes) (h2 : fs'.log = fs.log) (h3 : fs'.next = fs.next) :
    Pend f b D fs' := by
  refine ⟨?_, ?_, ?_⟩
  · rw [h1]; exact h.nosock
  · rw [h1, h2]; exact h.same
  · rw [h2, h3]; exact h.next

theorem Pend.set (h : Pend f b D fs) (i : Nat) (o : Option Inode) (ho : ∀ nd, o = some nd → nd.isSock = false) :
    Pend f b (i :: D) (fs.set i o) := by
  refine ⟨?_, ?_, h.next⟩
  · intro k nd hk
    simp only [Fs.set, upd_apply] at hk
    split at hk
    · exact ho nd hk
    · exact h.nosock k nd hk
  · intro k hk
    simp only [List.mem_cons, not_or] at hk
    simp only [Fs.set]
    rw [upd_ne _ _ hk.1]; exact h.same k hk.2

theorem Pend.setSame (h : Pend f b D fs) {i : Nat} {nd nd' : Inode} (hi : fs.inodes i = some nd) (hf : f i nd' = f i nd)
    (hk : nd'.kind = nd.kind) : Pend f b D (fs.set i (some nd')) := by
  have hs : nd'.isSock = false := by
    have := h.nosock i nd hi
    simp only [Inode.isSock, hk] at this ⊢; exact this
  refine ⟨?_, ?_, h.next⟩
  · intro k x hx
    simp only [Fs.set, upd_apply] at hx
    split at hx
    · cases hx; exact hs
    · exact h.nosock k x hx
  · intro k hx
    simp only [Fs.set, upd_apply]
    split
    · rename_i e; subst e
      have := h.same k hx
      rw [this, hi]; simp [hf]
    · exact h.same k hx

theorem Pend.mono (h : Pend f b D fs) {D' : List Nat} (hs : ∀ i, i ∈ D → i ∈ D') : Pend f b D' fs :=
  ⟨h.nosock, fun i hi => h.same i (fun e => hi (hs i e)), h.next⟩

theorem Pend.log (hb : Blind f) {i : Nat} (h : Pend f b (i :: D) fs) : Pend f b D (fs.logIno i) := by
  refine ⟨h.nosock, ?_, ?_⟩
  · intro k hk
    simp only [Fs.logIno]
    rw [replay_snoc]
    simp only [upd_apply]
    split
    · rename_i e; subst e
      cases hx : fs.inodes k with
      | none => rfl
      | some nd => exact congrArg some (hb _ nd 0)
    · rename_i e
      exact h.same k (by simp only [List.mem_cons, not_or]; exact ⟨e, hk⟩)
  · simp only [Fs.logIno]
    rw [maxNum_append]
    have h1 := h.next
    have h2 := maxNum_le (maxNum b.next fs.log) [(i, fs.inodes i)]
    omega

/-- Logging more does no harm. -/
theorem Pend.log' (hb : Blind f) {i : Nat} (h : Pend f b D fs) : Pend f b D (fs.logIno i) :=
  Pend.log hb (h.mono (fun k hk => by simp [hk]))

theorem Pend.create (hb : Blind f) (h : Pend f b [] fs) {par : Nat} {name : Name} {nd : Nat → Inode} {fs' : Fs}
    (hn : (nd fs.next).isSock = false) (hc : fs.create par name nd = some fs') : Pend f b [] fs' := by
  unfold Fs.create at hc
  cases hp : fs.inodes par with
  | none => rw [hp] at hc; cases hc
  | some pd =>
    rw [hp] at hc
    dsimp only at hc
    split at hc
    · next hd =>
      injection hc with hc
      subst hc
      have hpd : pd.isSock = false := h.nosock par pd hp
      have h0 := (h.set par (some { pd with ents := entPut pd.ents name fs.next, link := pd.link + 1 }) (by
        rintro x ⟨⟩; simp only [Inode.isSock] at hpd ⊢; exact hpd)).set fs.next (some (nd fs.next)) (by rintro x ⟨⟩; exact hn)
      have h1 := Pend.log hb (h0.mono (D' := [par, fs.next]) (by simp))
      have h2 := Pend.log hb h1
      refine ⟨h2.nosock, h2.same, ?_⟩
      simp only [Fs.logIno]
      rw [maxNum_append]
      simp only [maxNum, List.foldl_cons, List.foldl_nil, upd_same]
      omega
    · cases hc

theorem Pend.openObj (h : Pend f b D fs) (i sz : Nat) : Pend f b D (fs.openObj i sz) :=
  h.congr (openObj_inodes fs i sz).1 (by unfold Fs.openObj; split <;> rfl) (openObj_inodes fs i sz).2

theorem Pend.mkdir (hb : Blind f) (h : Pend f b [] fs) (p : List Name) (m : BitVec 32) : Pend f b [] (fs.mkdir p m).1 := by
  unfold Fs.mkdir
  repeat' split
  all_goals first | exact h | exact Pend.create hb h rfl ‹_›

theorem Pend.mknod (hb : Blind f) (h : Pend f b [] fs) (p : List Name) (m : BitVec 32) (d : BitVec 64) :
    Pend f b [] (fs.mknod p m d).1 := by
  unfold Fs.mknod
  repeat' split
  all_goals first | exact h | exact Pend.create hb h rfl ‹_›

/-- Truncation by open is not logged, so `f` must not see what is cut. -/
def CutOk (f : Nat → Inode → Inode) (fs : Fs) (p : List Name) (flags : BitVec 32) : Prop :=
  ∀ i par nd, flags &&& oTRUNC = oTRUNC → fs.walk p = some (some i, par) → fs.inodes i = some nd → nd.kind = .file →
    f i { nd with size := 0 } = f i nd

theorem Pend.openP (hb : Blind f) (h : Pend f b [] fs) {p : List Name} {flags mode : BitVec 32} (hcut : CutOk f fs p flags) :
    Pend f b [] (fs.openP p flags mode).1 := by
  unfold Fs.openP
  cases hw : fs.walk p with
  | none => exact h
  | some r =>
    obtain ⟨o, par⟩ := r
    cases o with
    | none =>
      cases par with
      | none => exact h
      | some par =>
        dsimp only
        repeat' split
        all_goals first | exact h | exact (Pend.create hb h rfl ‹_›).openObj _ _
    | some i =>
      dsimp only
      unfold Fs.openExisting
      split
      · exact h
      · cases hi : fs.inodes i with
        | none => exact h
        | some nd =>
          dsimp only
          cases hk : nd.kind with
          | sock => exact h
          | dir => dsimp only; refine h.setSame hi ?_ (by simp [hk]); rw [← hk]; exact hb _ nd _
          | chr dv => dsimp only; refine h.setSame hi ?_ (by simp [hk]); rw [← hk]; exact hb _ nd _
          | file =>
            dsimp only
            split
            · next ht =>
              cases hd : fs.disk i with
              | none => exact h
              | some dk =>
                dsimp only
                have h1 : Pend f b [] ((({ fs with fobj := upd fs.fobj i none } : Fs).rmHost i).openObj i 0) :=
                  Pend.openObj (fs := ({ fs with fobj := upd fs.fobj i none } : Fs).rmHost i) (h.congr rfl rfl rfl) i 0
                rw [← hk]
                refine h1.setSame (nd := nd) ?_ ?_ rfl
                · rw [(openObj_inodes _ i 0).1]; exact hi
                · exact (hb i { nd with size := 0 } (nd.ref + 1)).trans (hcut i par nd ht hw hi hk)
            · rw [← hk]
              refine (h.openObj i nd.size).setSame (nd := nd) ?_ (hb _ nd _) rfl
              rw [(openObj_inodes _ i nd.size).1]; exact hi

theorem Pend.link (hb : Blind f) (h : Pend f b [] fs) {o n : List Name} (hp : (fs.link o n).2 ≠ .panic) : Pend f b [] (fs.link o n).1 := by
  unfold Fs.link at hp ⊢
  cases hl : n.getLast? with
  | none => exact h
  | some name =>
    rw [hl] at hp
    dsimp only at hp ⊢
    cases hw : fs.walk o with
    | none => exact h
    | some r =>
      obtain ⟨oi, opar⟩ := r
      rw [hw] at hp
      cases oi with
      | none => exact h
      | some i =>
        dsimp only at hp ⊢
        cases hi : fs.inodes i with
        | none => exact h
        | some nd =>
          rw [hi] at hp
          dsimp only at hp ⊢
          by_cases hd : nd.isDir = true
          · rw [if_pos hd]; exact h
          · rw [if_neg hd] at hp ⊢
            have hnd : nd.isSock = false := h.nosock i nd hi
            have hundo : Pend f b [] ((fs.set i (some { nd with link := nd.link + 1 })).set i (some { nd with link := nd.link + 1 - 1 })) := by
              have e : (fs.set i (some { nd with link := nd.link + 1 })).set i (some { nd with link := nd.link + 1 - 1 })
                  = fs.set i (some nd) := by
                simp only [Fs.set, upd_upd, Nat.add_sub_cancel]
              rw [e]; exact h.setSame hi rfl rfl
            cases hw2 : (fs.set i (some { nd with link := nd.link + 1 })).walk n with
            | none => rw [hw2] at hp; exact absurd rfl hp
            | some r =>
              obtain ⟨o2, par2⟩ := r
              rw [hw2] at hp
              cases o2 with
              | some _ => exact hundo
              | none =>
                cases par2 with
                | none => exact hundo
                | some par =>
                  dsimp only at hp ⊢
                  cases hpar : (fs.set i (some { nd with link := nd.link + 1 })).inodes par with
                  | none => rw [hpar] at hp; exact absurd rfl hp
                  | some pd =>
                    rw [hpar] at hp
                    dsimp only at hp ⊢
                    by_cases hpd : pd.isDir = true
                    · rw [if_pos hpd]
                      have h0 := h.set i (some { nd with link := nd.link + 1 }) (by
                        rintro x ⟨⟩; simp only [Inode.isSock] at hnd ⊢; exact hnd)
                      have hps := h0.nosock par pd hpar
                      have h1 := h0.set par (some { pd with ents := entPut pd.ents name i, link := pd.link + 1 }) (by
                        rintro x ⟨⟩; simp only [Inode.isSock] at hps ⊢; exact hps)
                      exact Pend.log hb (Pend.log hb h1)
                    · rw [if_neg hpd] at hp; exact absurd rfl hp

theorem Pend.removeFromParent (h : Pend f b D fs) (par : Nat) (p : List Name) :
    Pend f b (par :: D) (fs.removeFromParent par p).1 := by
  have hw : Pend f b (par :: D) fs := h.mono (by simp; intro i hi; exact .inr hi)
  unfold Fs.removeFromParent
  cases hp : fs.inodes par with
  | none => exact hw
  | some pd =>
    have hs := h.nosock par pd hp
    dsimp only
    repeat' split
    all_goals first
      | exact hw
      | exact h.set par _ (by rintro x ⟨⟩; simp only [Inode.isSock] at hs ⊢; exact hs)

theorem removeFromParent_keep {par : Nat} {p : List Name} {fs2 : Fs} {r : Ret} (hr : fs.removeFromParent par p = (fs2, r))
    (hp : r ≠ .panic) (ho : ∀ v, r ≠ .ok v) :
    ∃ pd, fs.inodes par = some pd ∧ pd.isDir = true ∧ pd.mode &&& sIWALL = 0 := by
  unfold Fs.removeFromParent at hr
  cases hi : fs.inodes par with
  | none => rw [hi] at hr; cases hr; exact absurd rfl hp
  | some pd =>
    rw [hi] at hr
    dsimp only at hr
    split at hr
    · next hd =>
      split at hr
      · next hm => exact ⟨pd, rfl, hd, hm⟩
      · split at hr
        · cases hr; exact absurd rfl hp
        · split at hr <;> cases hr
          · exact absurd rfl hp
          · exact absurd rfl (ho 0)
    · cases hr; exact absurd rfl hp

theorem Pend.unlink (hb : Blind f) (h : Pend f b [] fs) {p : List Name} (ht : UnlinkTame fs p) (hp : (fs.unlink p).2 ≠ .panic) :
    Pend f b [] (fs.unlink p).1 := by
  unfold Fs.unlink at hp ⊢
  cases hw : fs.walk p with
  | none => exact h
  | some r =>
    obtain ⟨o, par⟩ := r
    rw [hw] at hp
    cases o with
    | none => exact h
    | some i =>
      cases par with
      | none => exact h
      | some par =>
        dsimp only at hp ⊢
        cases hi : fs.inodes i with
        | none => exact h
        | some nd =>
          rw [hi] at hp
          dsimp only at hp ⊢
          by_cases hd : nd.isDir = true
          · rw [if_pos hd]; exact h
          · rw [if_neg hd] at hp ⊢
            have hs : nd.isSock = false := h.nosock i nd hi
            have h1 := h.set i (some { nd with link := nd.link - 1 }) (by rintro x ⟨⟩; simp only [Inode.isSock] at hs ⊢; exact hs)
            have h2 := h1.removeFromParent par p
            cases hr : (fs.set i (some { nd with link := nd.link - 1 })).removeFromParent par p with
            | mk fs2 r =>
              rw [hr] at hp h2
              have key : (∀ v, r ≠ .ok v) → False := by
                intro ho
                have hnp : r ≠ .panic := by rintro rfl; exact hp rfl
                obtain ⟨pd, e1, e2, e3⟩ := removeFromParent_keep hr hnp ho
                simp only [Fs.set, upd_apply] at e1
                split at e1
                · cases e1; exact hd e2
                · exact ht i par pd hw e1 e3
              cases r with
              | ok v =>
                dsimp only at hp h2 ⊢
                by_cases hpan : nd.isFile = true ∧ nd.link - 1 = 0 ∧ nd.ref = 0 ∧ fs2.disk i = none
                · rw [if_pos hpan] at hp; exact absurd rfl hp
                · rw [if_neg hpan, if_neg (by simp [hs])]
                  have h3 : ∀ fs3 : Fs, Pend f b [par, i] fs3 → Pend f b []
                      ((({ fs3 with dom := fs3.dom.filter (· ≠ p) } : Fs).logIno par).logIno i) := by
                    intro fs3 h3
                    exact Pend.log hb (Pend.log hb (fs := { fs3 with dom := fs3.dom.filter (· ≠ p) }) (h3.congr rfl rfl rfl))
                  apply h3
                  have h4 : Pend f b [par, i] (fs2.set i none) :=
                    (h2.set i none (fun x e => by cases e)).mono (by simp)
                  split
                  · split
                    · exact h4.congr rfl rfl rfl
                    · exact h4
                  · exact h2
              | _ => exact (key (by simp)).elim

theorem Pend.rmdir (hb : Blind f) (h : Pend f b [] fs) {p : List Name} (hp : (fs.rmdir p).2 ≠ .panic) :
    Pend f b [] (fs.rmdir p).1 := by
  unfold Fs.rmdir at hp ⊢
  cases hw : fs.walk p with
  | none => exact h
  | some r =>
    obtain ⟨o, par⟩ := r
    rw [hw] at hp
    cases o with
    | none => exact h
    | some i =>
      cases par with
      | none => exact h
      | some par =>
        dsimp only at hp ⊢
        cases hpar : fs.inodes par with
        | none => exact h
        | some pd =>
          rw [hpar] at hp
          dsimp only at hp ⊢
          by_cases hw1 : pd.isDir = true ∧ pd.mode &&& sIWALL = 0
          · rw [if_pos hw1]; exact h
          · rw [if_neg hw1] at hp ⊢
            cases hi : fs.inodes i with
            | none => exact h
            | some nd =>
              rw [hi] at hp
              dsimp only at hp ⊢
              by_cases hd : nd.isDir = true
              · rw [if_pos hd] at hp ⊢
                by_cases hl : nd.link > 3
                · rw [if_pos hl]; exact h
                · rw [if_neg hl] at hp ⊢
                  by_cases hm : (!modeIsDir nd.mode) = true
                  · rw [if_pos hm] at hp; exact absurd rfl hp
                  · rw [if_neg hm] at hp ⊢
                    by_cases hw2 : nd.mode &&& sIWALL = 0
                    · rw [if_pos hw2]; exact h
                    · rw [if_neg hw2] at hp ⊢
                      have hs : nd.isSock = false := h.nosock i nd hi
                      have h1 : Pend f b [i] (if nd.ref = 0 then fs.set i (some { nd with link := 2 }) else fs) := by
                        split
                        · exact h.set i (some { nd with link := 2 }) (by rintro x ⟨⟩; simp only [Inode.isSock] at hs ⊢; exact hs)
                        · exact h.mono (by simp)
                      have hpm : ∀ x, (if nd.ref = 0 then fs.set i (some { nd with link := 2 }) else fs).inodes par = some x →
                          x.isDir = true → x.mode &&& sIWALL = 0 → False := by
                        intro x e1 e2 e3
                        split at e1
                        · simp only [Fs.set, upd_apply] at e1
                          split at e1
                          · cases e1; exact hw2 e3
                          · rw [hpar] at e1; cases e1; exact hw1 ⟨e2, e3⟩
                        · rw [hpar] at e1; cases e1; exact hw1 ⟨e2, e3⟩
                      generalize (if nd.ref = 0 then fs.set i (some { nd with link := 2 }) else fs) = g at h1 hpm hp ⊢
                      have h2 := h1.removeFromParent par p
                      cases hr : g.removeFromParent par p with
                      | mk fs2 r =>
                        rw [hr] at hp h2
                        have key : (∀ v, r ≠ .ok v) → False := by
                          intro ho
                          have hnp : r ≠ .panic := by rintro rfl; exact hp rfl
                          obtain ⟨x, e1, e2, e3⟩ := removeFromParent_keep hr hnp ho
                          exact hpm x e1 e2 e3
                        cases r with
                        | ok v =>
                          dsimp only at h2 ⊢
                          have h3 : Pend f b [par, i] (if nd.ref = 0 then fs2.set i none else fs2) := by
                            split
                            · exact (h2.set i none (fun x e => by cases e)).mono (by simp)
                            · exact h2
                          exact Pend.log hb (Pend.log hb h3)
                        | _ => exact (key (by simp)).elim
              · rw [if_neg hd]; exact h

theorem Pend.rename (hb : Blind f) (h : Pend f b [] fs) (o n : List Name) : Pend f b [] (fs.rename o n).1 := by
  unfold Fs.rename
  repeat' split
  any_goals exact h
  · rename_i hpar _ _ _
    have hs := h.nosock _ _ hpar
    exact Pend.congr (Pend.log hb (h.set _ _ (by rintro x ⟨⟩; simp only [Inode.isSock] at hs ⊢; exact hs))) rfl rfl rfl
  · exact h.congr rfl rfl rfl

theorem Pend.chmodIno (hb : Blind f) (h : Pend f b [] fs) (i : Nat) (m : BitVec 32) : Pend f b [] (fs.chmodIno i m).1 := by
  unfold Fs.chmodIno
  split
  · split
    · exact h
    · rename_i nd hi
      have hs := h.nosock _ _ hi
      dsimp only
      rw [if_neg (by simp [hs])]
      exact Pend.log hb (h.set _ _ (by rintro x ⟨⟩; simp only [Inode.isSock] at hs ⊢; exact hs))
  · exact h

theorem Pend.chmod (hb : Blind f) (h : Pend f b [] fs) (p : List Name) (m : BitVec 32) : Pend f b [] (fs.chmod p m).1 := by
  unfold Fs.chmod
  repeat' split
  all_goals first | exact h | exact h.chmodIno hb _ _

theorem writeAt_same {i off : Nat} {data : List UInt8} {fs' : Fs} (h : fs.writeAt i off data = some fs') :
    fs'.inodes = fs.inodes ∧ fs'.log = fs.log ∧ fs'.next = fs.next := by
  unfold Fs.writeAt at h
  repeat' split at h
  all_goals cases h
  exact ⟨rfl, rfl, rfl⟩

theorem Pend.writeAt (h : Pend f b D fs) {i off : Nat} {data : List UInt8} {fs' : Fs} (e : fs.writeAt i off data = some fs') :
    Pend f b D fs' := h.congr (writeAt_same e).1 (writeAt_same e).2.1 (writeAt_same e).2.2

theorem Pend.writeIno (hb : Blind f) (h : Pend f b [] fs) {i off : Nat} {nd : Inode} {data : List UInt8} {fs' : Fs}
    (hi : fs.inodes i = some nd) (e : fs.writeIno i nd off data = some fs') : Pend f b [] fs' := by
  unfold Fs.writeIno at e
  have key : ∀ fs1, (if off > nd.size then fs.writeAt i nd.size (List.replicate (off - nd.size) 0)
    else if (fs.fobj i).isNone then none else some fs) = some fs1 → Pend f b [] fs1 := by
    intro fs1 e1
    repeat' split at e1
    · exact h.writeAt e1
    · cases e1
    · cases e1; exact h
  generalize (if off > nd.size then fs.writeAt i nd.size (List.replicate (off - nd.size) 0)
    else if (fs.fobj i).isNone then none else some fs) = g at e key
  cases g with
  | none => cases e
  | some fs1 =>
    have h1 := key fs1 rfl
    dsimp only at e
    cases e2 : fs1.writeAt i off data with
    | none => rw [e2] at e; cases e
    | some fs2 =>
      rw [e2] at e
      have h2 := h1.writeAt e2
      have hs := h.nosock i nd hi
      dsimp only at e
      split at e
      · cases e
        exact Pend.log hb (h2.set _ _ (by rintro x ⟨⟩; simp only [Inode.isSock] at hs ⊢; exact hs))
      · cases e; exact h2

theorem Pend.truncIno (hb : Blind f) (h : Pend f b [] fs) (i : Nat) (len : Int) (me : Bool) : Pend f b [] (fs.truncIno i len me).1 := by
  unfold Fs.truncIno
  split
  · exact h
  · cases hi : fs.inodes i with
    | none => exact h
    | some nd =>
      have hs := h.nosock i nd hi
      dsimp only
      split
      any_goals exact h
      split
      · exact h
      · have key : ∀ fs2, (if nd.size < len.toNat then (fs.openObj i nd.size).writeAt i nd.size (List.replicate (len.toNat - nd.size) 0)
            else match (fs.openObj i nd.size).fobj i with
              | none => none
              | some sz =>
                if len.toNat > sz then none
                else some { (fs.openObj i nd.size) with
                  disk := upd (fs.openObj i nd.size).disk i (some ((((fs.openObj i nd.size).disk i).getD []).take len.toNat))
                  fobj := upd (fs.openObj i nd.size).fobj i (some len.toNat) }) = some fs2 → Pend f b [] fs2 := by
          intro fs2 e
          have h1 := h.openObj i nd.size
          repeat' split at e
          · exact h1.writeAt e
          · cases e
          · cases e
          · cases e; exact h1.congr rfl rfl rfl
        generalize (if nd.size < len.toNat then (fs.openObj i nd.size).writeAt i nd.size (List.replicate (len.toNat - nd.size) 0)
            else match (fs.openObj i nd.size).fobj i with
              | none => none
              | some sz =>
                if len.toNat > sz then none
                else some { (fs.openObj i nd.size) with
                  disk := upd (fs.openObj i nd.size).disk i (some ((((fs.openObj i nd.size).disk i).getD []).take len.toNat))
                  fobj := upd (fs.openObj i nd.size).fobj i (some len.toNat) }) = g at key ⊢
        cases g with
        | none => exact h
        | some fs2 =>
          dsimp only
          have h2 : Pend f b [] ({ fs2 with fobj := if (fs.fobj i).isNone then upd fs2.fobj i none else fs2.fobj } : Fs) :=
            (key fs2 rfl).congr rfl rfl rfl
          exact Pend.log hb (h2.set _ _ (by rintro x ⟨⟩; simp only [Inode.isSock] at hs ⊢; first | exact hs | rfl))

theorem Pend.truncate (hb : Blind f) (h : Pend f b [] fs) (p : List Name) (len : Int) : Pend f b [] (fs.truncate p len).1 := by
  unfold Fs.truncate
  repeat' split
  all_goals first | exact h | exact h.truncIno hb _ _ _

theorem Pend.incRef (hb : Blind f) (h : Pend f b [] fs) {i : Nat} {fs' : Fs} (e : fs.incRef i = some fs') : Pend f b [] fs' := by
  unfold Fs.incRef at e
  split at e
  · cases e
  · cases e; exact h.setSame ‹_› (hb _ _ _) rfl

theorem Pend.closeIno (hb : Blind f) (h : Pend f b [] fs) (i : Nat) : Pend f b [] (fs.closeIno i).1 := by
  unfold Fs.closeIno
  cases hi : fs.inodes i with
  | none => exact h
  | some nd =>
    have h1 : Pend f b [] (fs.set i (some { nd with ref := nd.ref - 1 })) := h.setSame hi (hb _ nd _) rfl
    have h2 : Pend f b [] ({ (fs.set i (some { nd with ref := nd.ref - 1 })) with
        fobj := upd (fs.set i (some { nd with ref := nd.ref - 1 })).fobj i none } : Fs) := h1.congr rfl rfl rfl
    have hd : ∀ {g : Fs}, Pend f b [] g → Pend f b [] ((g.set i none).logIno i) := fun hg =>
      Pend.log hb (hg.set i none (fun x e => by cases e))
    have hd' : ∀ {g : Fs}, Pend f b [] g → Pend f b [] (((g.set i none).rmHost i).logIno i) := fun hg =>
      Pend.log hb (Pend.congr (hg.set i none (fun x e => by cases e)) rfl rfl rfl)
    dsimp only
    cases hk : nd.kind <;> dsimp only
    all_goals (try rw [← hk])
    all_goals repeat' split
    all_goals first
      | exact h
      | exact h1
      | exact h2
      | exact hd h1
      | exact hd' h2
      | exact h1.log' hb

/-! ## Calls -/

theorem Pend.bump (hb : Blind f) {s s' : State} (h : Pend f b [] s.fs) {d : Desc} (e : s.bump d = some s') : Pend f b [] s'.fs := by
  cases d <;> simp only [State.bump] at e
  · split at e
    · cases e
    · cases e; exact h.incRef hb ‹_›
  · split at e
    · cases e
    · cases e; exact h
  all_goals cases e; exact h

theorem Pend.drop (hb : Blind f) {s : State} (h : Pend f b [] s.fs) (d : Desc) : Pend f b [] (s.drop d).1.fs := by
  cases d <;> simp only [State.drop]
  · exact h.closeIno hb _
  · split <;> exact h
  all_goals exact h

theorem Pend.closeSlot (hb : Blind f) {s : State} (h : Pend f b [] s.fs) (c fd : Nat) (o : Option Desc) :
    Pend f b [] (s.closeSlot c fd o).1.fs := by
  simp only [State.closeSlot]
  split
  · exact h
  · rename_i d
    have h := Pend.drop hb h d
    split <;> rename_i e <;> rw [e] at h
    · rw [setFd_fs']; exact h
    · exact h

theorem Pend.putCopy (hb : Blind f) {s : State} (h : Pend f b [] s.fs) (c : Nat) (d : Desc) (n : Nat) :
    Pend f b [] (s.putCopy c d n).1.fs := by
  simp only [State.putCopy]
  split
  · exact h
  · rw [setFd_fs']; exact h.bump hb ‹_›

theorem Pend.dupFrom (hb : Blind f) {s : State} (h : Pend f b [] s.fs) (c : Nat) (cg : Cage) (d : Desc) (n : Nat) :
    Pend f b [] (dupFrom s c cg d n).1.fs := by
  simp only [Kernel.dupFrom]
  repeat' split
  all_goals first | exact h | exact h.putCopy hb _ _ _

theorem Pend.closeWhere (hb : Blind f) (sel : Desc → Bool) (c : Nat) (k : Nat) {s : State} (h : Pend f b [] s.fs) :
    Pend f b [] (closeWhere sel c k s).1.fs := by
  induction k with
  | zero => exact h
  | succ k ih =>
    simp only [Kernel.closeWhere]
    split <;> rename_i e <;> rw [e] at ih
    · exact ih
    · repeat' split
      all_goals first | exact ih | exact Pend.closeSlot hb ih _ _ _

theorem Pend.forkCopy (hb : Blind f) {t : Table} {ch k : Nat} {s s' : State} (h : Pend f b [] s.fs) (e : forkCopy t ch k s = some s') :
    Pend f b [] s'.fs := by
  induction k generalizing s' with
  | zero => cases e; exact h
  | succ k ih =>
    simp only [Kernel.forkCopy] at e
    split at e
    · cases e
    · rename_i s1 e1
      split at e
      · cases e; exact ih e1
      · split at e
        · cases e
        · cases e
          rw [setFd_fs']
          exact Pend.bump hb (ih e1) ‹_›

theorem Pend.exit (hb : Blind f) {s : State} (h : Pend f b [] s.fs) (c : Nat) (st : Int) : Pend f b [] (Kernel.exit s c st).1.fs := by
  have h2 := Pend.closeWhere hb (fun _ => true) c maxFd h
  unfold Kernel.exit
  generalize Kernel.closeWhere (fun _ => true) c maxFd s = x at h2 ⊢
  obtain ⟨s', r⟩ := x
  cases r <;> exact h2

theorem Pend.nonEmpty {p : Str} {s : State} {r : State × Out} (h : Pend f b [] s.fs)
    (h' : r.2.ret ≠ .panic → Pend f b [] r.1.fs) (hp : (nonEmpty p s r).2.ret ≠ .panic) :
    Pend f b [] (nonEmpty p s r).1.fs := by
  unfold Kernel.nonEmpty at hp ⊢
  split
  · exact h
  · rename_i e; rw [if_neg e] at hp; exact h' hp

/-- What the call cuts by opening a file with `O_TRUNC`, `f` does not see. -/
def OpCutOk (f : Nat → Inode → Inode) (s : State) (c : Nat) : Op → Prop
  | .openP p flags _ => ∀ cg, s.cages c = some cg → CutOk f s.fs (cg.path p) flags
  | _ => True

theorem pend_step (hb : Blind f) {s : State} {c : Nat} {op : Op} (h : Pend f b [] s.fs) (ht : Tame s c op)
    (hcut : OpCutOk f s c op) (hp : (step s c op).2.ret ≠ .panic) : Pend f b [] (step s c op).1.fs := by
  cases hc : s.cages c with
  | none => simp only [step, hc]; exact h
  | some cg =>
    unfold Tame at ht
    rw [hc] at ht
    dsimp only at ht
    cases op with
    | openP p flags mode =>
      have h1 := h.openP hb (mode := mode) (hcut cg hc)
      simp only [step, hc, openSys]
      split
      · exact h
      · split
        · exact h
        · split
          · rename_i e
            rw [e] at h1; exact h1
          · rename_i e
            rw [e] at h1
            rw [setFd_fs']; exact h1
    | mkdir p m => simp only [step, hc] at hp ⊢; exact h.nonEmpty (fun _ => h.mkdir hb _ _) hp
    | mknod p m d => simp only [step, hc] at hp ⊢; exact h.nonEmpty (fun _ => h.mknod hb _ _ _) hp
    | link o n =>
      simp only [step, hc] at hp ⊢
      exact h.nonEmpty (fun hp => h.nonEmpty (fun hp => h.link hb hp) hp) hp
    | unlink p => simp only [step, hc] at hp ⊢; exact h.nonEmpty (fun hp => h.unlink hb ht hp) hp
    | rmdir p => simp only [step, hc] at hp ⊢; exact h.nonEmpty (fun hp => h.rmdir hb hp) hp
    | rename o n =>
      simp only [step, hc] at hp ⊢
      exact h.nonEmpty (fun hp => h.nonEmpty (fun _ => h.rename hb _ _) hp) hp
    | chmod p m => simp only [step, hc]; exact h.chmod hb _ _
    | fchmod fd m =>
      simp only [step, hc, fchmod]
      repeat' split
      all_goals first | exact h | exact h.chmodIno hb _ _
    | stat p => simp only [step, hc]; exact h
    | fstat fd => simp only [step, hc]; exact h
    | access p m => simp only [step, hc]; exact h
    | chdir p => simp only [step, hc, chdir]; repeat' split
                 all_goals exact h
    | fchdir fd => simp only [step, hc, fchdir]; repeat' split
                   all_goals exact h
    | truncate p len => simp only [step, hc]; exact h.truncate hb _ _
    | ftruncate fd len =>
      simp only [step, hc, ftruncate]
      repeat' split
      all_goals first | exact h | exact h.truncIno hb _ _ _
    | read fd n =>
      simp only [step, hc, Kernel.read]
      repeat' split
      all_goals first | exact h | (rw [setFd_fs']; exact h)
    | pread fd n off =>
      simp only [step, hc, pread]
      repeat' split
      all_goals exact h
    | write fd data =>
      simp only [step, hc, Kernel.write]
      repeat' split
      all_goals first | exact h | (rw [setFd_fs']; exact h.writeIno hb ‹_› ‹_›)
    | pwrite fd data off =>
      simp only [step, hc, pwrite]
      repeat' split
      all_goals first | exact h | exact h.writeIno hb ‹_› ‹_›
    | writev fd iovs =>
      simp only [step, hc, writev]
      repeat' split
      all_goals first | exact h | (rw [setFd_fs']; exact h.writeIno hb ‹_› ‹_›)
    | lseek fd off w =>
      simp only [step, hc, lseek]
      repeat' split
      all_goals first | exact h | (rw [setFd_fs']; exact h)
    | getdents fd b =>
      simp only [step, hc, getdents]
      repeat' split
      all_goals first | exact h | (rw [setFd_fs']; exact h)
    | dup fd =>
      simp only [step, hc, dup]
      repeat' split
      all_goals first | exact h | exact h.dupFrom hb _ _ _ _
    | dup2 o n =>
      simp only [step, hc, dup2]
      repeat' split
      all_goals first
        | exact h
        | exact h.drop hb _
        | exact h.putCopy hb _ _ _
        | exact Pend.putCopy hb (h.drop hb _) _ _ _
    | close fd =>
      simp only [step, hc, close]
      split
      · exact h
      · exact h.closeSlot hb _ _ _
    | fcntl fd cmd arg =>
      simp only [step, hc, fcntl]
      repeat' split
      all_goals first | exact h | (rw [setFd_fs']; exact h) | exact h.dupFrom hb _ _ _ _
    | pipe2 fl =>
      simp only [step, hc, pipe2]
      repeat' split
      all_goals first | exact h | (rw [setFd_fs']; exact h) | (rw [setFd_fs', setFd_fs']; exact h)
    | socket a b =>
      simp only [step, hc, putNew]
      repeat' split
      all_goals first | exact h | (rw [setFd_fs']; exact h)
    | epollCreate n =>
      simp only [step, hc, putNew]
      repeat' split
      all_goals first | exact h | (rw [setFd_fs']; exact h)
    | fork ch =>
      simp only [step, hc, fork]
      split
      · exact h
      · split
        · exact h
        · rename_i s1 h1
          have h2 : Pend f b [] s1.fs := Pend.forkCopy hb (by simpa only [State.setCage] using h) h1
          repeat' split
          all_goals first | exact h | exact h2.setSame ‹_› (hb _ _ _) rfl
    | exec ch =>
      simp only [step, hc, exec]
      have h2 := Pend.closeWhere hb (fun d => d.flags &&& oCLOEXEC != 0) c maxFd h
      by_cases hm : ch ≥ maxCage
      · rw [if_pos hm]; exact h
      · rw [if_neg hm]
        generalize maxFd = k at h2 ⊢
        split <;> rename_i e <;> rw [e] at h2
        · exact h2
        · split
          · exact h2
          · simp only [State.setCage]; exact h2
    | exit st =>
      have h2 := h.exit hb c st
      simp only [step, hc]
      exact h2

end Verif.Recovery
