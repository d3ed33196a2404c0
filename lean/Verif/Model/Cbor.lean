import Verif.Basic
/-!
Model of `data-formats/src/cborparser.rs`: the array wrapper which splits a CBOR
array into the raw bytes of its elements.
-/
namespace Verif.Cbor

/-- `ArrayParseError` and the I/O error of `read_exact` (cborparser.rs:98-114). -/
inductive ParseErr where
  | io
  | invalidTopLevelType (major : Nat)
  | lengthParseFailure
  | parseFailure
  | unsupportedMajorType (major : Nat)
  | invalidNumberOfElements (received expected : Nat)
  | noData
  deriving DecidableEq, Repr

/-- `MajorType as u8` (cborparser.rs:119-130). Kept as the number 0..7:
0 Unsigned, 1 Negative, 2 ByteString, 3 TextString, 4 Array, 5 Map, 6 Tag, 7 Special.
`MajorType::maybe_from_u8(byte & MASK_TYPE)` (cborparser.rs:132-146): the upper three bits;
its error branch is unreachable because `val >> 5` is at most 7. -/
def major (b : UInt8) : Nat := b.toNat / 32

/-- `byte & MASK_VAL` (cborparser.rs:117, 305): the lower five bits. -/
def minor (b : UInt8) : Nat := b.toNat % 32

/-- Big-endian bytes of a value, `n` of them (`BigEndian::write_u16` etc.). -/
def toBe : Nat → Nat → Bytes
  | 0, _ => []
  | n + 1, v => toBe n (v / 256) ++ [UInt8.ofNat (v % 256)]

/-- `encode_item_start` (cborparser.rs:148-166). `m` is the major type (0..7), `v` a `u64`.
For `v > 65535` the buffers are one (respectively four) byte(s) too short for
`BigEndian::write_u32/write_u64` on `buf[1..]`, which panics. -/
def encodeItemStart (m v : Nat) : Res ParseErr Bytes :=
  if v ≤ 23 then .ok [UInt8.ofNat (m * 32 + v)]
  else if v ≤ 255 then .ok [UInt8.ofNat (m * 32 + 24), UInt8.ofNat v]
  else if v ≤ 65535 then .ok (UInt8.ofNat (m * 32 + 25) :: toBe 2 v)
  else .panic

/-- `length_size` in `read_len` (cborparser.rs:173-180). -/
def lengthSize (minor : Nat) : Option Nat :=
  if minor ≤ 23 then some 0
  else if minor = 24 then some 1
  else if minor = 25 then some 2
  else if minor = 26 then some 4
  else if minor = 27 then some 8
  else none

/-- `read_len` (cborparser.rs:168-202): the value, the raw length bytes, and the remaining
input. `header` is masked by the function itself, so it may be passed the full byte or the
minor. `read_exact(..).unwrap()` panics if the input ends early. -/
def readLen (inp : Bytes) (header : Nat) : Res ParseErr (Nat × Bytes × Bytes) :=
  match lengthSize (header % 32) with
  | none => .err .lengthParseFailure
  | some 0 => .ok (header % 32, [], inp)
  | some n =>
    if inp.length < n then .panic
    else .ok (beNat (inp.take n), inp.take n, inp.drop n)

/-- Number of items a map of `len` pairs contributes: `length * 2` on `u64`
(cborparser.rs:343). `checked` is the build profile: overflow panics in a debug build
(`none`) and wraps in a release build. -/
def mapItems (checked : Bool) (len : Nat) : Option Nat :=
  if 2 * len < 2 ^ 64 then some (2 * len)
  else if checked then none else some (2 * len % 2 ^ 64)

/-- The `left_at_depth[0]` update at the end of the loop body (cborparser.rs:354-364). -/
def popLeft : List Nat → Res ParseErr (List Nat)
  | 1 :: s => .ok s
  | 0 :: _ => .err .parseFailure
  | (n + 2) :: s => .ok ((n + 1) :: s)
  | [] => .panic

/-- State of the element loop: `left_at_depth`, `toplevel_buf`, `parsed_items`. -/
structure LoopSt where
  left : List Nat
  buf : Bytes
  items : List Bytes
  deriving DecidableEq, Repr

/-- The end of the loop body (cborparser.rs:349-364), after the element's bytes are in `buf`. -/
def finishElem (st : LoopSt) : Res ParseErr LoopSt := do
  let st' := if st.left.length = 1 then { st with buf := [], items := st.items ++ [st.buf] } else st
  let left ← popLeft st'.left
  pure { st' with left := left }

/-- One iteration of the loop body after the loop condition (cborparser.rs:301-364), for a
header byte `b` already read. Returns the new state and remaining input.
`vec![0; length]` (323) panics with "capacity overflow" from `2^63` on; smaller allocations
are assumed to succeed (memory exhaustion is not modelled). -/
def elemStep (checked : Bool) (b : UInt8) (inp : Bytes) (st : LoopSt) :
    Res ParseErr (LoopSt × Bytes) := do
  let st := { st with buf := st.buf ++ [b] }
  match major b with
  | 6 =>
    let (_, lb, inp) ← readLen inp (minor b)
    pure ({ st with buf := st.buf ++ lb }, inp)
  | 0 | 1 =>
    let (_, lb, inp) ← readLen inp (minor b)
    let st ← finishElem { st with buf := st.buf ++ lb }
    pure (st, inp)
  | 2 | 3 =>
    let (len, lb, inp) ← readLen inp (minor b)
    if len ≥ 2 ^ 63 then .panic
    else if inp.length < len then .err .io
    else
      let st ← finishElem { st with buf := st.buf ++ lb ++ inp.take len }
      pure (st, inp.drop len)
  | 4 =>
    let (len, lb, inp) ← readLen inp (minor b)
    let st := { st with buf := st.buf ++ lb }
    let st ← finishElem (if len ≠ 0 then { st with left := len :: st.left } else st)
    pure (st, inp)
  | 5 =>
    let (len, lb, inp) ← readLen inp (minor b)
    let st := { st with buf := st.buf ++ lb }
    if len ≠ 0 then
      match mapItems checked len with
      | none => .panic
      | some n =>
        let st ← finishElem { st with left := n :: st.left }
        pure (st, inp)
    else
      let st ← finishElem st
      pure (st, inp)
  | m => .err (.unsupportedMajorType m)

theorem readLen_rest_le {inp : Bytes} {h : Nat} {v : Nat} {lb rest : Bytes}
    (hr : readLen inp h = .ok (v, lb, rest)) : rest.length ≤ inp.length := by
  unfold readLen at hr
  split at hr
  · cases hr
  · cases hr; exact Nat.le_refl _
  · split at hr
    · cases hr
    · cases hr; simp

theorem elemStep_rest_le {c : Bool} {b : UInt8} {inp : Bytes} {st st' : LoopSt} {rest : Bytes}
    (h : elemStep c b inp st = .ok (st', rest)) : rest.length ≤ inp.length := by
  unfold elemStep at h
  simp only at h
  split at h
  · obtain ⟨⟨v, lb, r⟩, h1, h2⟩ := Res.bind_eq_ok.1 h
    cases h2; exact readLen_rest_le h1
  · obtain ⟨⟨v, lb, r⟩, h1, h2⟩ := Res.bind_eq_ok.1 h
    obtain ⟨a, _, h3⟩ := Res.bind_eq_ok.1 h2
    cases h3; exact readLen_rest_le h1
  · obtain ⟨⟨v, lb, r⟩, h1, h2⟩ := Res.bind_eq_ok.1 h
    obtain ⟨a, _, h3⟩ := Res.bind_eq_ok.1 h2
    cases h3; exact readLen_rest_le h1
  · obtain ⟨⟨v, lb, r⟩, h1, h2⟩ := Res.bind_eq_ok.1 h
    simp only at h2
    split at h2
    · cases h2
    · split at h2
      · cases h2
      · obtain ⟨a, _, h3⟩ := Res.bind_eq_ok.1 h2
        cases h3
        have := readLen_rest_le h1
        simp; omega
  · obtain ⟨⟨v, lb, r⟩, h1, h2⟩ := Res.bind_eq_ok.1 h
    simp only at h2
    split at h2
    · cases h2
    · split at h2
      · cases h2
      · obtain ⟨a, _, h3⟩ := Res.bind_eq_ok.1 h2
        cases h3
        have := readLen_rest_le h1
        simp; omega
  · obtain ⟨⟨v, lb, r⟩, h1, h2⟩ := Res.bind_eq_ok.1 h
    obtain ⟨a, _, h3⟩ := Res.bind_eq_ok.1 h2
    cases h3; exact readLen_rest_le h1
  · obtain ⟨⟨v, lb, r⟩, h1, h2⟩ := Res.bind_eq_ok.1 h
    simp only at h2
    split at h2
    · split at h2
      · cases h2
      · obtain ⟨a, _, h3⟩ := Res.bind_eq_ok.1 h2
        cases h3; exact readLen_rest_le h1
    · obtain ⟨a, _, h3⟩ := Res.bind_eq_ok.1 h2
      cases h3; exact readLen_rest_le h1
  · cases h

/-- The element loop (cborparser.rs:295-365): ends when `left_at_depth` is empty. -/
def elemLoop (checked : Bool) (inp : Bytes) (st : LoopSt) : Res ParseErr (LoopSt × Bytes) :=
  if st.left = [] then .ok (st, inp)
  else match inp with
    | [] => .err .io
    | b :: inp' =>
      match h : elemStep checked b inp' st with
      | .ok (st', rest) =>
        have : rest.length < (b :: inp').length := by
          have := elemStep_rest_le h
          simp; omega
        elemLoop checked rest st'
      | .err e => .err e
      | .panic => .panic
termination_by inp.length

/-- `ParsedArray<N>` (cborparser.rs:60-80). The cached `header` bytes are omitted: they are
never read back (serialization recomputes the header). -/
structure ParsedArray where
  tag : Option Nat
  contents : List Bytes
  deriving DecidableEq, Repr

/-- First byte(s) of `deserialize_from_reader` (cborparser.rs:253-267): an optional tag.
Returns the tag, the byte that should start the array, and the rest. -/
def readTag (b : UInt8) (inp : Bytes) : Res ParseErr (Option Nat × UInt8 × Bytes) :=
  match major b with
  | 6 =>
    match readLen inp b.toNat with
    | .ok (_, _, []) => .err .io
    | .ok (t, _, b' :: inp') => .ok (some t, b', inp')
    | .err e => .err e
    | .panic => .panic
  | 4 => .ok (none, b, inp)
  | m => .err (.invalidTopLevelType m)

/-- The element part of `deserialize_from_reader` (cborparser.rs:293-387). -/
def readElements (checked : Bool) (size tag : Option Nat) (len : Nat) (inp : Bytes) :
    Res ParseErr (ParsedArray × Bytes) :=
  match elemLoop checked inp { left := [len], buf := [], items := [] } with
  | .ok (st, rest) =>
    match size with
    | some n =>
      if st.items.length ≠ n then .err .parseFailure
      else .ok ({ tag := tag, contents := st.items }, rest)
    | none => .ok ({ tag := tag, contents := st.items }, rest)
  | .err e => .err e
  | .panic => .panic

/-- Array head and elements (cborparser.rs:269-387); `b` is the byte that should start the array. -/
def readArray (checked : Bool) (size tag : Option Nat) (b : UInt8) (inp : Bytes) :
    Res ParseErr (ParsedArray × Bytes) :=
  if major b ≠ 4 then .err (.invalidTopLevelType (major b))
  else match readLen inp b.toNat with
    | .ok (len, _, inp) =>
      match size with
      | some n =>
        if len ≠ n then .err (.invalidNumberOfElements len n)
        else readElements checked size tag len inp
      | none =>
        if len = 0 then .ok ({ tag := tag, contents := [] }, inp)
        else readElements checked size tag len inp
    | .err e => .err e
    | .panic => .panic

/-- `ParsedArray::deserialize_from_reader` (cborparser.rs:235-388). `size` is `N::SIZE`
(`none` for the dynamic array). Returns the array and the unread rest of the stream. -/
def deserialize (checked : Bool) (size : Option Nat) (inp : Bytes) :
    Res ParseErr (ParsedArray × Bytes) :=
  match inp with
  | [] => .err .noData
  | b :: inp =>
    match readTag b inp with
    | .ok (tag, b', inp') => readArray checked size tag b' inp'
    | .err e => .err e
    | .panic => .panic

/-- `ParsedArray::serialize_to_writer` (cborparser.rs:213-233); the writer is a growing byte vector. -/
def serialize (a : ParsedArray) : Res ParseErr Bytes := do
  let t ← match a.tag with
    | some t => encodeItemStart 6 t
    | none => pure []
  let h ← encodeItemStart 4 a.contents.length
  pure (t ++ h ++ a.contents.flatten)

/-- `deserialize_many_from_reader` with `maybe_deserialize_from_reader` (serializable.rs:33-64)
for parsed arrays; fuel is one more than the number of bytes (each array has at least one byte). -/
def deserializeManyAux (checked : Bool) (size : Option Nat) :
    Nat → Bytes → Res ParseErr (List ParsedArray)
  | 0, _ => .err .io
  | fuel + 1, inp =>
    match deserialize checked size inp with
    | .ok (a, rest) => do
      let as ← deserializeManyAux checked size fuel rest
      pure (a :: as)
    | .err .noData => .ok []
    | .err e => .err e
    | .panic => .panic

/-- See `deserializeManyAux`. -/
def deserializeMany (checked : Bool) (size : Option Nat) (inp : Bytes) :
    Res ParseErr (List ParsedArray) :=
  deserializeManyAux checked size (inp.length + 1) inp

end Verif.Cbor
