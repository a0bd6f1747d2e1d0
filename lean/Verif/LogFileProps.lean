import Verif.LogFileLemmas

/-!
# C27: an append that is cut short is harmless

The specification is in terms of what was appended, what the machine did when it died, and what is read at the next start.
-/

namespace Verif.LogFile

/-- Append one entry after the other; `none` if an append panics. -/
def run : Map → List Entry → Option Map
  | m, [] => some m
  | m, e :: es => match m.append e with | none => none | some m' => run m' es

/-- What is appended can be told by machine words: numbers, sizes, times, lengths; and the log is shorter than `2^64` bytes. -/
def Sane (es : List Entry) : Prop := (∀ e, e ∈ es → EntryFits e) ∧ Word (bytes es).length

theorem Sane.left {es fs : List Entry} (h : Sane (es ++ fs)) : Sane es := by
  refine ⟨fun e he => h.1 e (by simp [he]), ?_⟩
  have := h.2; simp only [Word, bytes_append, List.length_append] at this ⊢; omega

theorem holds_fresh : Holds fresh [] := by
  refine ⟨by simp, ?_, rfl, by simp [fresh], by simp [fresh], by simp [fresh, bytes]⟩
  simp only [fresh]; decide +kernel

theorem run_holds {m m' : Map} {es fs : List Entry} (h : Holds m es) (hr : run m fs = some m') (hs : Sane (es ++ fs)) :
    Holds m' (es ++ fs) := by
  induction fs generalizing m es with
  | nil => simp only [run] at hr; injection hr with hr; subst hr; simpa using h
  | cons e fs ih =>
    simp only [run] at hr
    split at hr
    · cases hr
    · next m1 hm1 =>
      have hs' : Sane ((es ++ [e]) ++ fs) := by simpa using hs
      have hc : m1.count = (bytes (es ++ [e])).length := by
        have hf := h.fit (putEntry e)
        simp only [Map.append, Map.write] at hm1
        split at hm1
        · cases hm1
        · injection hm1 with hm1; subst hm1
          simp only [bytes_append, List.length_append]; rw [hf.count]; simp [bytes]
      have h1 := h.append e (hs.1 e (by simp)) hm1 (by rw [hc]; exact hs'.left.2)
      have := ih h1 hr hs'
      simpa using this

/-- **C27, read back.**  Whatever entries were appended since the log was created, the next start reads exactly these entries. -/
theorem load_run {es : List Entry} {m : Map} (hs : Sane es) (hr : run fresh es = some m) : load m.img = some es := by
  have := run_holds holds_fresh hr (es := []) (by simpa using hs)
  exact Holds.load (by simpa using this)

/-- **C27, torn append.**  After any entries, if the machine dies anywhere inside the next append, the next start reads exactly the entries
that were appended before; only if the append had already stored the new count it also reads the new entry, in full. -/
theorem torn_append {es : List Entry} {e : Entry} {m : Map} {f : Img} (hs : Sane (es ++ [e])) (hr : run fresh es = some m)
    (hd : Dies m (putEntry e) f) :
    load f = some es ∨ (load f = some (es ++ [e]) ∧ ∃ m', m.append e = some m' ∧ f = m'.img) := by
  have hm : Holds m es := by
    have := run_holds holds_fresh hr (es := []) (by simpa using hs.left)
    simpa using this
  have hf := hm.fit (putEntry e)
  cases hd with
  | before => exact .inl hm.load
  | extended => exact .inl hf.load
  | copying xs hl hroom =>
    left
    have hcnt : (m.fit (putEntry e)).count = m.count := fit_count m _
    have hr1 := hf.room
    refine load_of _ _ es m.count hm.fits hm.cnt hm.word hm.count ?_ ?_
    · rw [patch_length _ _ _ (by rw [hl]; omega)]; omega
    · rw [patch_take _ _ _ (by omega), ← hcnt]; exact hf.data
  | after m' hw =>
    right
    have hr' : run fresh (es ++ [e]) = some m' := by
      have : ∀ (l : List Entry) (a b : Map), run a l = some b → run a (l ++ [e]) = b.append e := by
        intro l
        induction l with
        | nil => intro a b h; simp only [run] at h; injection h with h; subst h; simp only [List.nil_append, run]; cases a.append e <;> rfl
        | cons x l ih =>
          intro a b h
          simp only [run, List.cons_append] at h ⊢
          cases hx : a.append x with
          | none => rw [hx] at h; cases h
          | some c => rw [hx] at h; exact ih c b h
      rw [this es fresh m hr]; exact hw
    exact ⟨load_run hs hr', m', hw, rfl⟩

/-- The copy never overwrites what was appended before, and the eight bytes of the count are the last thing an append changes. -/
theorem append_keeps {m m' : Map} {e : Entry} (h : m.append e = some m') (hroom : m.count ≤ m.img.data.length) :
    m'.img.data.take m.count = m.img.data.take m.count ∧ m'.count = m.count + (putEntry e).length := by
  simp only [Map.append, Map.write] at h
  have hc := fit_count m (putEntry e)
  split at h
  · cases h
  · next hr =>
    injection h with h; subst h
    simp only [hc]
    refine ⟨?_, trivial⟩
    have hl : m.img.data.length ≤ (m.fit (putEntry e)).img.data.length := by
      unfold Map.fit; split
      · simp [Map.extend]
      · exact Nat.le_refl _
    rw [patch_take _ _ _ (by omega)]
    unfold Map.fit; split
    · simp only [Map.extend]; rw [List.take_append_of_le_length hroom]
    · rfl

/-! ## The hypotheses are met -/

theorem write_room {m : Map} {bs : Bytes} (h : bs.length + m.count ≤ m.img.data.length) :
    m.write bs = some { img := { cnt := be cntSize (m.count + bs.length), data := patch m.img.data m.count bs },
                        count := m.count + bs.length } := by
  have hf : m.fit bs = m := by unfold Map.fit; rw [if_neg (by omega)]
  simp only [Map.write, hf]; rw [if_neg (by omega)]

/-- Short logs never panic. -/
theorem run_short {m : Map} {es fs : List Entry} (h : Holds m es) (hs : Sane (es ++ fs))
    (hl : (bytes (es ++ fs)).length ≤ m.img.data.length) : ∃ m', run m fs = some m' := by
  induction fs generalizing m es with
  | nil => exact ⟨m, rfl⟩
  | cons e fs ih =>
    have hb : (bytes (es ++ e :: fs)).length = (bytes es).length + ((putEntry e).length + (bytes fs).length) := by
      simp [bytes]
    have hw := write_room (m := m) (bs := putEntry e) (by have := h.count; omega)
    have hs' : Sane ((es ++ [e]) ++ fs) := by simpa using hs
    have hw2 : m.count + (putEntry e).length < 256 ^ 8 := by
      have h2 := hs.2; have h3 := h.count; simp only [Word] at h2; omega
    have h1 := h.append e (hs.1 e (by simp)) hw hw2
    obtain ⟨m', hm'⟩ := ih h1 hs' (by
      simp only [List.append_assoc, List.cons_append, List.nil_append]
      rw [patch_length _ _ _ (by have := h.count; omega)]; exact hl)
    refine ⟨m', ?_⟩
    simp only [run, Map.append, hw]; exact hm'

def sampleAttr : Attr := { size := 70000, uid := 1000, gid := 1000, mode := 33188, link := 1, atime := 5000000000, ctime := 3, mtime := 25 }
/-- A file, a directory with three names, a removed inode, a device. -/
def sample : List Entry :=
  [(9, some (.file sampleAttr)),
   (1, some (.dir { sampleAttr with mode := 16895, link := 4 } [([46], 1), ([46, 46], 1), ([102], 9)])),
   (300, none), (3, some (.chr sampleAttr 1 3))]

theorem sample_sane : Sane (sample ++ [(9, none)]) := by
  refine ⟨?_, ?_⟩
  · intro e he
    simp only [sample, List.cons_append, List.nil_append, List.mem_cons, List.not_mem_nil, or_false] at he
    rcases he with rfl | rfl | rfl | rfl | rfl <;>
      simp [EntryFits, RecFits, AttrFits, Word, sampleAttr]
    rintro a b (⟨rfl, rfl⟩ | ⟨rfl, rfl⟩ | ⟨rfl, rfl⟩) <;> decide
  · have : (bytes (sample ++ [(9, none)])).length < 1000 := by decide +kernel
    simp only [Word]; omega

example : ∃ m, run fresh sample = some m ∧ (bytes sample).length > 100 := by
  obtain ⟨m, hm⟩ := run_short holds_fresh (fs := sample) sample_sane.left (by
    have : (bytes ([] ++ sample)).length < 1000 := by decide +kernel
    simp only [fresh, List.length_replicate, mb, cntSize]; omega)
  exact ⟨m, hm, by decide +kernel⟩

/-- A crash in the middle of the copy of the fifth entry. -/
example : ∃ m f, run fresh sample = some m ∧ Dies m (putEntry (9, none)) f ∧ f ≠ m.img := by
  have hb : (bytes ([] ++ sample)).length < 1000 := by decide +kernel
  obtain ⟨m, hm⟩ := run_short holds_fresh (fs := sample) sample_sane.left (by
    simp only [fresh, List.length_replicate, mb, cntSize]; omega)
  have hh := run_holds holds_fresh hm (es := []) sample_sane.left
  have hl : ∃ m', m.append (9, none) = some m' := by
    simp only [Map.append, Map.write]
    have : ¬ (m.fit (putEntry (9, none))).count + (putEntry (9, none)).length > (m.fit (putEntry (9, none))).img.data.length := by
      have h3 := fit_count m (putEntry (9, none)); have h1 := hh.room
      have h2 : (putEntry (9, none)).length = 3 := by decide +kernel
      unfold Map.fit; split
      · simp only [Map.extend, List.length_append, List.length_replicate, mb]; omega
      · omega
    rw [if_neg this]; exact ⟨_, rfl⟩
  obtain ⟨m', hm'⟩ := hl
  refine ⟨m, m'.img, hm, .after m' hm', ?_⟩
  intro heq
  have hs : Sane (sample ++ [(9, none)]) := sample_sane
  have h1 := hh.load
  have h2 : load m'.img = some (sample ++ [(9, none)]) := by
    have hcount := (append_keeps hm' hh.room).2
    have h4 := hh.append (9, none) (hs.1 _ (by simp)) hm' (by
      have h5 : (putEntry (9, none)).length = 3 := by decide +kernel
      have h6 := hh.count
      have h7 : (256 : Nat) ^ 8 = 18446744073709551616 := by decide
      omega)
    exact h4.load
  rw [heq, h1] at h2
  exact absurd h2 (by decide +kernel)

/-! ## What does not hold -/

/-- Were the eight bytes of the count not stored at once, a crash between them could lose everything: 63 entries of four bytes, one more,
and of the count only the last byte stored. -/
theorem torn_count_violated : ∃ (es : List Entry) (e : Entry) (m m' : Map), Sane (es ++ [e]) ∧ es.length = 63 ∧ run fresh es = some m ∧
    m.append e = some m' ∧ load { m'.img with cnt := m.img.cnt.take 7 ++ m'.img.cnt.drop 7 } = some [] := by
  let es : List Entry := List.replicate 63 (100, none)
  have hlen : (bytes es).length = 252 := by decide +kernel
  have hlen1 : (bytes (es ++ [(100, none)])).length = 256 := by decide +kernel
  have hlen2 : (putEntry (100, none)).length = 4 := by decide +kernel
  have hs : Sane (es ++ [(100, none)]) := by
    refine ⟨?_, ?_⟩
    · intro e he
      have : e = (100, none) := by
        simp only [es, List.mem_append, List.mem_singleton] at he
        rcases he with he | he
        · exact List.eq_of_mem_replicate he
        · exact he
      subst this; simp [EntryFits, Word]
    · rw [hlen1]; exact (by decide +kernel : (256 : Nat) < 256 ^ 8)
  obtain ⟨m, hm⟩ := run_short holds_fresh (fs := es) hs.left (by
    simp only [List.nil_append, hlen, fresh, List.length_replicate, mb, cntSize]; omega)
  have hh := run_holds holds_fresh hm (es := []) hs.left
  have hc : m.count = 252 := by rw [hh.count]; exact hlen
  obtain ⟨m', hm'⟩ : ∃ m', m.append (100, none) = some m' := by
    simp only [Map.append, Map.write]
    have : ¬ (m.fit (putEntry (100, none))).count + (putEntry (100, none)).length >
        (m.fit (putEntry (100, none))).img.data.length := by
      have h3 := fit_count m (putEntry (100, none)); have h1 := hh.room
      unfold Map.fit; split
      · simp only [Map.extend, List.length_append, List.length_replicate, mb]; omega
      · omega
    rw [if_neg this]; exact ⟨_, rfl⟩
  have hc' : m'.count = 256 := by rw [(append_keeps hm' hh.room).2, hc, hlen2]
  have hh' := hh.append (100, none) (hs.1 _ (by simp)) hm' (by rw [hc']; decide +kernel)
  refine ⟨es, (100, none), m, m', hs, by simp [es], hm, hm', ?_⟩
  refine load_of _ _ [] 0 (by simp) ?_ (by decide) rfl (by omega) (by simp [bytes])
  rw [hh.cnt, hh'.cnt, hc, hc']; decide +kernel

/-- An entry longer than what is left plus one megabyte panics instead of being appended: a directory with a name of three megabytes (or
with as many bytes of shorter names). -/
theorem append_large_violated : ∃ e : Entry, EntryFits e ∧ fresh.append e = none := by
  refine ⟨(1, some (.dir sampleAttr [(List.replicate (3 * mb) 97, 9)])), ?_, ?_⟩
  · generalize hx : List.replicate (3 * mb) (97 : UInt8) = x
    have : x.length = 3 * mb := by rw [← hx]; exact List.length_replicate
    simp [EntryFits, RecFits, AttrFits, Word, sampleAttr, this, mb]
  · have hl : (putEntry (1, some (.dir sampleAttr [(List.replicate (3 * mb) 97, 9)]))).length > 3 * mb := by
      generalize hx : List.replicate (3 * mb) (97 : UInt8) = x
      have : x.length = 3 * mb := by rw [← hx]; exact List.length_replicate
      simp only [putEntry, putRec, putDict, List.flatMap_cons, List.flatMap_nil, List.length_append, List.append_nil, this]
      have : (head 4 2).length = 1 := by decide
      omega
    simp only [Map.append, Map.write]
    generalize putEntry (1, some (.dir sampleAttr [(List.replicate (3 * mb) 97, 9)])) = bs at hl ⊢
    have hf : (fresh.fit bs).img.data.length ≤ 2 * mb := by
      unfold Map.fit; split
      · simp only [Map.extend, fresh, List.length_append, List.length_replicate, mb, cntSize]; omega
      · simp only [fresh, List.length_replicate, mb, cntSize]; omega
    rw [if_pos (by omega)]

end Verif.LogFile
