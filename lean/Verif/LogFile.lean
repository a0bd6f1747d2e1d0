import Verif.Base

/-!
# Model of the metadata log: its bytes, the mapped file, and reading it back

`/repo/src/interface/file.rs` 294-440 (`EmulatedFileMap`), `/repo/src/safeposix/filesystem.rs` 310-416.

The bytes of an entry are made by `serde_cbor::ser::to_vec_packed`, which is a library and not in `/repo`.  What is modelled here is its
format (RFC 8949): a number is a head, a struct a map from field positions to fields, a variant a map with one key, the position of the
variant, an option the value or null, a pair an array of two.  Skipped fields (`refcount`) do not appear.  The decoder accepts the fields in
the order in which they are written.
-/

namespace Verif.LogFile

/-- Bytes. -/
abbrev Bytes := List UInt8

/-! ## Numbers in big-endian order -/

/-- `k` bytes of `n`, most significant first. -/
def be : Nat → Nat → Bytes
  | 0, _ => []
  | k + 1, n => UInt8.ofNat (n / 256 ^ k) :: be k (n % 256 ^ k)

/-- The number, `convert_bytes_to_size`, `/repo/src/interface/file.rs` 485-488. -/
def unbe (bs : Bytes) : Nat := bs.foldl (fun n b => n * 256 + b.toNat) 0

/-! ## CBOR -/

/-- Major type `m` (0 number, 3 text, 4 array, 5 map) with argument `n`. -/
def head (m n : Nat) : Bytes :=
  if n < 24 then [UInt8.ofNat (m * 32 + n)]
  else if n < 256 ^ 1 then UInt8.ofNat (m * 32 + 24) :: be 1 n
  else if n < 256 ^ 2 then UInt8.ofNat (m * 32 + 25) :: be 2 n
  else if n < 256 ^ 4 then UInt8.ofNat (m * 32 + 26) :: be 4 n
  else UInt8.ofNat (m * 32 + 27) :: be 8 n

/-- Take exactly `k` bytes. -/
def takeN (k : Nat) (bs : Bytes) : Option (Bytes × Bytes) :=
  if k ≤ bs.length then some (bs.take k, bs.drop k) else none

/-- A `k`-byte argument. -/
def argN (m k : Nat) (bs : Bytes) : Option (Nat × Nat × Bytes) :=
  match takeN k bs with
  | none => none
  | some (a, r) => some (m, unbe a, r)

/-- Read a head. -/
def getHead : Bytes → Option (Nat × Nat × Bytes)
  | [] => none
  | b :: r =>
    let m := b.toNat / 32
    let a := b.toNat % 32
    if a < 24 then some (m, a, r)
    else if a = 24 then argN m 1 r
    else if a = 25 then argN m 2 r
    else if a = 26 then argN m 4 r
    else if a = 27 then argN m 8 r
    else none

/-- Read a head of major type `m`. -/
def want (m : Nat) (bs : Bytes) : Option (Nat × Bytes) :=
  match getHead bs with
  | some (m', n, r) => if m' = m then some (n, r) else none
  | none => none

/-- A number; `u32`, `u64`, `usize`. -/
def putNum (n : Nat) : Bytes := head 0 n
def getNum (bs : Bytes) : Option (Nat × Bytes) := want 0 bs

/-- Field number `k` of a struct, a number. -/
def putField (k n : Nat) : Bytes := putNum k ++ putNum n
def getField (k : Nat) (bs : Bytes) : Option (Nat × Bytes) :=
  match getNum bs with
  | some (k', r) => if k' = k then getNum r else none
  | none => none

/-- Entries of a directory: `filename_to_inode_dict`, a map from names to numbers. -/
def putDict (d : List (Bytes × Nat)) : Bytes :=
  head 5 d.length ++ d.flatMap fun e => head 3 e.1.length ++ e.1 ++ putNum e.2
def getEnts : Nat → Bytes → Option (List (Bytes × Nat) × Bytes)
  | 0, bs => some ([], bs)
  | k + 1, bs =>
    match want 3 bs with
    | none => none
    | some (l, r) =>
      match takeN l r with
      | none => none
      | some (s, r1) =>
        match getNum r1 with
        | none => none
        | some (i, r2) =>
          match getEnts k r2 with
          | none => none
          | some (es, r3) => some ((s, i) :: es, r3)
def getDict (bs : Bytes) : Option (List (Bytes × Nat) × Bytes) :=
  match want 5 bs with
  | none => none
  | some (n, r) => getEnts n r

/-! ## Inodes, `/repo/src/safeposix/filesystem.rs` 45-122 -/

/-- The fields common to all variants, in the order of their declaration, without `refcount`. -/
structure Attr where
  size : Nat
  uid : Nat
  gid : Nat
  mode : Nat
  link : Nat
  atime : Nat
  ctime : Nat
  mtime : Nat
  deriving DecidableEq, Repr

/-- `Inode`. -/
inductive Rec
  | file (a : Attr)
  | chr (a : Attr) (major minor : Nat)
  | sock (a : Attr)
  | dir (a : Attr) (dict : List (Bytes × Nat))
  deriving DecidableEq, Repr

def putAttr (a : Attr) : Bytes :=
  putField 0 a.size ++ putField 1 a.uid ++ putField 2 a.gid ++ putField 3 a.mode ++ putField 4 a.link ++ putField 5 a.atime ++
    putField 6 a.ctime ++ putField 7 a.mtime

def getAttr (bs : Bytes) : Option (Attr × Bytes) := do
  let (size, r) ← getField 0 bs
  let (uid, r) ← getField 1 r
  let (gid, r) ← getField 2 r
  let (mode, r) ← getField 3 r
  let (link, r) ← getField 4 r
  let (atime, r) ← getField 5 r
  let (ctime, r) ← getField 6 r
  let (mtime, r) ← getField 7 r
  some ({ size, uid, gid, mode, link, atime, ctime, mtime }, r)

/-- The variant, then the struct. -/
def putRec : Rec → Bytes
  | .file a => head 5 1 ++ putNum 0 ++ head 5 8 ++ putAttr a
  | .chr a x y => head 5 1 ++ putNum 1 ++ head 5 9 ++ putAttr a ++ putNum 8 ++ head 5 2 ++ putField 0 x ++ putField 1 y
  | .sock a => head 5 1 ++ putNum 2 ++ head 5 8 ++ putAttr a
  | .dir a d => head 5 1 ++ putNum 3 ++ head 5 9 ++ putAttr a ++ putNum 8 ++ putDict d

/-- Read a head of this type and argument. -/
def expect (m n : Nat) (bs : Bytes) : Option Bytes :=
  match want m bs with
  | some (n', r) => if n' = n then some r else none
  | none => none

def getRec (bs : Bytes) : Option (Rec × Bytes) := do
  let r ← expect 5 1 bs
  let (v, r) ← getNum r
  if v = 0 then
    let r ← expect 5 8 r
    let (a, r) ← getAttr r
    some (.file a, r)
  else if v = 1 then
    let r ← expect 5 9 r
    let (a, r) ← getAttr r
    let r ← expect 0 8 r
    let r ← expect 5 2 r
    let (x, r) ← getField 0 r
    let (y, r) ← getField 1 r
    some (.chr a x y, r)
  else if v = 2 then
    let r ← expect 5 8 r
    let (a, r) ← getAttr r
    some (.sock a, r)
  else if v = 3 then
    let r ← expect 5 9 r
    let (a, r) ← getAttr r
    let r ← expect 0 8 r
    let (d, r) ← getDict r
    some (.dir a d, r)
  else none

/-! ## Entries of the log -/

/-- `serialpair`, `/repo/src/safeposix/filesystem.rs` 400-410: an inode number and what is there. -/
abbrev Entry := Nat × Option Rec

/-- Null is byte `0xf6`. -/
def putEntry (e : Entry) : Bytes :=
  head 4 2 ++ putNum e.1 ++ (match e.2 with | none => [0xf6] | some r => putRec r)

def getEntry (bs : Bytes) : Option (Entry × Bytes) :=
  match expect 4 2 bs with
  | none => none
  | some r =>
    match getNum r with
    | none => none
    | some (i, r1) =>
      match r1 with
      | 0xf6 :: r2 => some ((i, none), r2)
      | _ =>
        match getRec r1 with
        | none => none
        | some (x, r2) => some ((i, some x), r2)

/-- The items of an array of indefinite length, up to the byte `0xff`, after which nothing may follow. -/
def getItems : Nat → Bytes → Option (List Entry)
  | 0, _ => none
  | fuel + 1, bs =>
    match bs with
    | [] => none
    | b :: r =>
      if b = 0xff then (if r = [] then some [] else none)
      else
        match getEntry (b :: r) with
        | none => none
        | some (e, r1) =>
          match getItems fuel r1 with
          | none => none
          | some es => some (e :: es)

/-! ## The mapped file, `/repo/src/interface/file.rs` 294-440 -/

/-- `MAP_1MB`. -/
def mb : Nat := 1048576
/-- `COUNTMAPSIZE`. -/
def cntSize : Nat := 8

/-- The file: the first eight bytes, and the rest. -/
structure Img where
  cnt : Bytes
  data : Bytes
  deriving DecidableEq, Repr

/-- `EmulatedFileMap`: the file, which is mapped and shared, `count`; `mapsize` is the length of `data`. -/
structure Map where
  img : Img
  count : Nat
  deriving DecidableEq, Repr

/-- `EmulatedFileMap::new`, 311-353, on a file that does not exist (see `load`). -/
def fresh : Map := { img := { cnt := List.replicate cntSize 0, data := List.replicate (mb - cntSize) 0 }, count := 0 }

/-- `extend_map`, 378-424. -/
def Map.extend (m : Map) : Map := { m with img := { m.img with data := m.img.data ++ List.replicate mb 0 } }

/-- The first part of `write_to_map`, 358-361: one extension, if the bytes do not fit. -/
def Map.fit (m : Map) (bs : Bytes) : Map := if bs.length + m.count > m.img.data.length then m.extend else m

/-- `data` with `bs` at `k`. -/
def patch (data : Bytes) (k : Nat) (bs : Bytes) : Bytes := data.take k ++ bs ++ data.drop (k + bs.length)

/-- `write_to_map`, 355-376; `none` is the panic of the slice if one extension was not enough. -/
def Map.write (m : Map) (bs : Bytes) : Option Map :=
  let m1 := m.fit bs
  if m1.count + bs.length > m1.img.data.length then none
  else
    some { img := { cnt := be cntSize (m1.count + bs.length), data := patch m1.img.data m1.count bs }, count := m1.count + bs.length }

/-- The files that a process that dies while it executes `write_to_map` can leave behind: the file as it was, or extended; with the slice
half copied (any bytes in it); with the slice copied; with the new count.  The eight bytes of the count are taken to be stored at once (they
are aligned). -/
inductive Dies (m : Map) (bs : Bytes) : Img → Prop
  | before : Dies m bs m.img
  | extended : Dies m bs (m.fit bs).img
  | copying (xs : Bytes) : xs.length = bs.length → (m.fit bs).count + bs.length ≤ (m.fit bs).img.data.length →
      Dies m bs { cnt := m.img.cnt, data := patch (m.fit bs).img.data m.count xs }
  | after (m' : Map) : m.write bs = some m' → Dies m bs m'.img

/-- The log part of `load_fs`, `/repo/src/safeposix/filesystem.rs` 320-336: the slice of `logsize` bytes between `0x9f` and `0xff`,
decoded.  `none` is a panic. -/
def load (f : Img) : Option (List Entry) :=
  let n := unbe f.cnt
  if n ≤ f.data.length then getItems (n + 2) (f.data.take n ++ [0xff]) else none

/-- `log_metadata`, `/repo/src/safeposix/filesystem.rs` 399-416. -/
def Map.append (m : Map) (e : Entry) : Option Map := m.write (putEntry e)

end Verif.LogFile
