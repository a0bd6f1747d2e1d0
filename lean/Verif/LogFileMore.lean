import Verif.LogFileProps
import Verif.IpTextProps

/-! The log: what is not an entry is refused, and the file grows by megabytes.  The device list: blank lines. -/

namespace Verif.LogFile

theorem want_not {m : Nat} {b : UInt8} (h : b.toNat / 32 ≠ m) (r : Bytes) : want m (b :: r) = none := by
  have hg : ∀ x, getHead (b :: r) = some x → x.1 = b.toNat / 32 := by
    intro x hx
    simp only [getHead] at hx
    have ha : ∀ k, argN (b.toNat / 32) k r = some x → x.1 = b.toNat / 32 := by
      intro k hk
      unfold argN at hk
      split at hk
      · cases hk
      · cases hk; rfl
    split at hx
    · cases hx; rfl
    · split at hx
      · exact ha _ hx
      · split at hx
        · exact ha _ hx
        · split at hx
          · exact ha _ hx
          · split at hx
            · exact ha _ hx
            · cases hx
  unfold want
  split
  · rename_i x y z hx
    have := hg _ hx
    dsimp only at this
    rw [if_neg (by rw [this]; exact h)]
  · rfl

theorem getItems_garbage (es : List Entry) (h : ∀ e, e ∈ es → EntryFits e) (b : UInt8) (hb : b.toNat / 32 ≠ 4) (g : Bytes) (hg : g ≠ [])
    (fuel : Nat) : getItems fuel (bytes es ++ b :: g) = none := by
  induction es generalizing fuel with
  | nil => cases fuel with
    | zero => rfl
    | succ k =>
      have he : getEntry (b :: g) = none := by
        simp only [getEntry, expect, want_not hb]
      simp only [bytes, List.flatMap_nil, List.nil_append, getItems]
      split
      · cases g with
        | nil => exact absurd rfl hg
        | cons x g => rfl
      · rw [he]
  | cons e es ih =>
    cases fuel with
    | zero => rfl
    | succ k =>
      have he := getEntry_put e (bytes es ++ b :: g) (h e (by simp))
      have hi := ih (fun x hx => h x (by simp [hx])) k
      obtain ⟨t, ht⟩ := putEntry_head e
      have hb' : bytes (e :: es) = putEntry e ++ bytes es := by simp [bytes]
      rw [hb', List.append_assoc]
      rw [ht] at he ⊢
      simp only [List.cons_append, getItems] at he ⊢
      rw [if_neg (by decide), he]; dsimp only
      rw [hi]

/-- C27.  A record is not read as one of another shape: where a field is expected under one key, a field written under another key is
refused, and so is a structure with another number of members. -/
theorem wrong_shape_refused (r : Bytes) :
    (∀ k k' n, k < 256 ^ 8 → k' < 256 ^ 8 → k' ≠ k → getField k (putField k' n ++ r) = none) ∧
    (∀ m m' n n', m < 8 → m' < 8 → n' < 256 ^ 8 → (m', n') ≠ (m, n) → expect m n (head m' n' ++ r) = none) := by
  constructor
  · intro k k' n _ hk' hne
    simp only [getField, putField, List.append_assoc, getNum_put k' _ hk', if_neg hne]
  · intro m m' n n' hm hm' hn' hne
    by_cases he : m' = m
    · subst he
      have : n' ≠ n := fun h => hne (by rw [h])
      simp only [expect, want_head m' n' r hm' hn', if_neg this]
    · have hw : want m (head m' n' ++ r) = none := by
        have : getHead (head m' n' ++ r) = some (m', n', r) := by
          have := want_head m' n' r hm' hn'
          unfold want at this
          cases hg : getHead (head m' n' ++ r) with
          | none => rw [hg] at this; cases this
          | some x =>
            obtain ⟨a, b, c⟩ := x
            rw [hg] at this
            dsimp only at this
            split at this
            · rename_i h; cases this; rw [h]
            · cases this
        simp only [want, this, if_neg he]
      simp only [expect, hw]

example : (1 : Nat) < 256 ^ 8 ∧ (2 : Nat) < 256 ^ 8 ∧ getField 1 (putField 2 5) = none := by decide +kernel

/-- **C27, garbage.**  If the counted part of the log goes on, after some entries, with a byte that does not start an array (so with zeros, text
or the end mark), then it is refused: no entries are made up, none are dropped silently. -/
theorem garbage_refused (f : Img) (es : List Entry) (h : ∀ e, e ∈ es → EntryFits e) (b : UInt8) (hb : b.toNat / 32 ≠ 4) (g : Bytes)
    (hd : f.data.take (unbe f.cnt) = bytes es ++ b :: g) : load f = none := by
  simp only [load]
  split
  · rw [hd]
    have := getItems_garbage es h b hb (g ++ [0xff]) (by simp) (unbe f.cnt + 2)
    simpa using this
  · rfl

example : load { cnt := be cntSize ((bytes (sample.take 1)).length + 2), data := bytes (sample.take 1) ++ [0, 0, 0] } = none ∧
    load { cnt := be cntSize ((bytes (sample.take 1)).length + 2), data := bytes (sample.take 1) ++ [0xff, 7, 0] } = none := by decide +kernel

/-- The size of the file is a whole number of megabytes. -/
def Whole (f : Img) : Prop := f.cnt.length = 8 ∧ ∃ k, f.cnt.length + f.data.length = k * 1048576

theorem whole_fit {m : Map} (h : Whole m.img) (bs : Bytes) : Whole (m.fit bs).img := by
  unfold Map.fit
  split
  · obtain ⟨h1, k, h2⟩ := h
    refine ⟨h1, k + 1, ?_⟩
    simp only [Map.extend, List.length_append, List.length_replicate, mb]
    omega
  · exact h

/-- **C27.**  However many entries are appended, the size of the log file is a whole number of megabytes, and it holds all that is counted. -/
theorem whole_run {es : List Entry} {m : Map} (h : run fresh es = some m) : Whole m.img ∧ m.count ≤ m.img.data.length := by
  have key : ∀ (es : List Entry) (m m' : Map), Whole m.img ∧ m.count ≤ m.img.data.length → run m es = some m' →
      Whole m'.img ∧ m'.count ≤ m'.img.data.length := by
    intro es
    induction es with
    | nil => intro m m' h hr; cases hr; exact h
    | cons e es ih =>
      intro m m' h hr
      simp only [run] at hr
      split at hr
      · cases hr
      · rename_i m1 hm1
        refine ih m1 m' ?_ hr
        simp only [Map.append, Map.write] at hm1
        split at hm1
        · cases hm1
        · rename_i hle
          injection hm1 with hm1
          obtain ⟨w1, k, w2⟩ := whole_fit h.1 (putEntry e)
          have hl : (patch (m.fit (putEntry e)).img.data (m.fit (putEntry e)).count (putEntry e)).length =
              (m.fit (putEntry e)).img.data.length := by
            simp only [patch, List.length_append, List.length_take, List.length_drop]; omega
          subst hm1
          refine ⟨⟨be_length _ _, k, ?_⟩, ?_⟩
          · dsimp only
            rw [hl, be_length]
            rw [w1] at w2
            exact w2
          · dsimp only
            rw [hl]; omega
  refine key es fresh m ⟨⟨by show (List.replicate 8 0).length = 8; rw [List.length_replicate], 1, ?_⟩, Nat.zero_le _⟩ h
  have h1 : fresh.img.cnt.length = cntSize := List.length_replicate
  have h2 : fresh.img.data.length = mb - cntSize := List.length_replicate
  rw [h1, h2]
  rfl

end Verif.LogFile

namespace Verif.IpText

/-- A device file with blank lines: `none` is a blank line. -/
def spacedFile : List (Option Dev) → List Char
  | [] => []
  | none :: vs => '\n' :: spacedFile vs
  | some v :: vs => v.line ++ '\n' :: spacedFile vs

theorem ipsLoop_spaced (ck : Bool) (vs : List (Option Dev)) (hok : ∀ v, some v ∈ vs → v.Ok) (acc : List Ip) :
    ipsLoop ck (splitOn '\n' (spacedFile vs)) acc
      = .ok (acc ++ vs.filterMap fun o => o.map fun v => .v4 [v.a, v.b, v.c, v.d]) := by
  induction vs generalizing acc with
  | nil => simp [spacedFile, splitOn, ipsLoop]
  | cons o vs ih =>
    cases o with
    | none =>
      have := splitOn_append (p := []) (c := '\n') (s := spacedFile vs) (by simp)
      simp only [List.nil_append] at this
      simp only [spacedFile]
      rw [this]
      simp only [ipsLoop, if_true]
      rw [ih (fun w hw => hok w (by simp [hw]))]
      simp
    | some v =>
      have hv := hok v (by simp)
      obtain ⟨ha, hb, hc, hd⟩ := hv.bytes
      obtain ⟨hs, hn⟩ := dotted_chars ha hb hc hd
      have hnl : '\n' ∉ v.line := by
        simp [Dev.line, hv.name.2, hv.flags.2, hv.rest, hn]
      simp only [spacedFile]
      rw [splitOn_append hnl]
      have hne : v.line ≠ [] := by simp [Dev.line]
      have hsp : (splitOn ' ' v.line)[2]? = some (dotted v.a v.b v.c v.d) := by
        simp only [Dev.line]
        rw [splitOn_append hv.name.1, splitOn_append hv.flags.1, splitOn_append hs]
        rfl
      simp only [ipsLoop, hne, if_false, hsp, v4_round_trip ck _ _ _ _ ha hb hc hd]
      rw [ih (fun w hw => hok w (by simp [hw]))]
      simp

/-- C59.  Blank lines in the device file do not matter, wherever they are. -/
theorem device_list_blank (ck : Bool) (vs : List (Option Dev)) (hok : ∀ v, some v ∈ vs → v.Ok) :
    ipsFromIfaddrs ck (spacedFile vs)
      = .ok ((vs.filterMap fun o => o.map fun v => .v4 [v.a, v.b, v.c, v.d]) ++ [.v4 [0, 0, 0, 0]]) := by
  have hz : fromString ck "0.0.0.0".toList = .ok (.v4 [0, 0, 0, 0]) := by
    have := v4_round_trip ck 0 0 0 0 (by omega) (by omega) (by omega) (by omega)
    rwa [show dotted 0 0 0 0 = "0.0.0.0".toList by decide] at this
  simp only [ipsFromIfaddrs, ipsLoop_spaced ck vs hok, hz]
  simp

example : ipsFromIfaddrs true
    "lo 73 127.0.0.1 255.0.0.0 127.0.0.1\n\neth0 4163 10.1.2.3 255.0.0.0 10.255.255.255\n".toList
    = .ok [.v4 [127, 0, 0, 1], .v4 [10, 1, 2, 3], .v4 [0, 0, 0, 0]] := by
  decide +kernel

end Verif.IpText
