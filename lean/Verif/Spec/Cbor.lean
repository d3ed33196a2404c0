import Verif.Basic
/-!
Independent specification: which byte strings are one complete CBOR data item (RFC 8949,
definite lengths, without major type 7, which this code base refuses).
It does not mention the parser.
-/
namespace Verif.Cbor.Spec

/-- `IsHead m v h`: `h` is an item head for major type `m` with argument `v`
(RFC 8949 section 3; not necessarily the shortest form). -/
inductive IsHead (m : Nat) : Nat → Bytes → Prop
  | imm {v : Nat} (hm : m < 8) (hv : v ≤ 23) : IsHead m v [UInt8.ofNat (32 * m + v)]
  | ext1 (hm : m < 8) {arg : Bytes} (ha : arg.length = 1) :
      IsHead m (beNat arg) (UInt8.ofNat (32 * m + 24) :: arg)
  | ext2 (hm : m < 8) {arg : Bytes} (ha : arg.length = 2) :
      IsHead m (beNat arg) (UInt8.ofNat (32 * m + 25) :: arg)
  | ext4 (hm : m < 8) {arg : Bytes} (ha : arg.length = 4) :
      IsHead m (beNat arg) (UInt8.ofNat (32 * m + 26) :: arg)
  | ext8 (hm : m < 8) {arg : Bytes} (ha : arg.length = 8) :
      IsHead m (beNat arg) (UInt8.ofNat (32 * m + 27) :: arg)

/-- `IsItem bs`: `bs` is exactly one complete CBOR item (integers, byte/text strings, arrays,
maps, tags). Lengths are below `2^63` (what fits in memory). -/
inductive IsItem : Bytes → Prop
  | int {m v : Nat} {h : Bytes} (hm : m = 0 ∨ m = 1) (hh : IsHead m v h) : IsItem h
  | str {m v : Nat} {h body : Bytes} (hm : m = 2 ∨ m = 3) (hh : IsHead m v h)
      (hl : body.length = v) (hv : v < 2 ^ 63) : IsItem (h ++ body)
  | array {v : Nat} {h : Bytes} {items : List Bytes} (hh : IsHead 4 v h)
      (hl : items.length = v) (hi : ∀ i ∈ items, IsItem i) : IsItem (h ++ items.flatten)
  | map {v : Nat} {h : Bytes} {items : List Bytes} (hh : IsHead 5 v h) (hv : v < 2 ^ 63)
      (hl : items.length = 2 * v) (hi : ∀ i ∈ items, IsItem i) : IsItem (h ++ items.flatten)
  | tag {v : Nat} {h body : Bytes} (hh : IsHead 6 v h) (hi : IsItem body) : IsItem (h ++ body)

/-- As `IsItem`, except that a map announcing `v ≥ 2^63` pairs may carry `2 v mod 2^64`
elements (at least one). This is what a release build accepts (`u64` multiplication wraps). -/
inductive IsItemWrap : Bytes → Prop
  | int {m v : Nat} {h : Bytes} (hm : m = 0 ∨ m = 1) (hh : IsHead m v h) : IsItemWrap h
  | str {m v : Nat} {h body : Bytes} (hm : m = 2 ∨ m = 3) (hh : IsHead m v h)
      (hl : body.length = v) (hv : v < 2 ^ 63) : IsItemWrap (h ++ body)
  | array {v : Nat} {h : Bytes} {items : List Bytes} (hh : IsHead 4 v h)
      (hl : items.length = v) (hi : ∀ i ∈ items, IsItemWrap i) : IsItemWrap (h ++ items.flatten)
  | map {v : Nat} {h : Bytes} {items : List Bytes} (hh : IsHead 5 v h)
      (hl : items.length = 2 * v % 2 ^ 64) (hz : v ≠ 0 → items ≠ [])
      (hi : ∀ i ∈ items, IsItemWrap i) : IsItemWrap (h ++ items.flatten)
  | tag {v : Nat} {h body : Bytes} (hh : IsHead 6 v h) (hi : IsItemWrap body) :
      IsItemWrap (h ++ body)

/-- The byte string ends inside the length field of one of its bytes read as an item head:
some byte with additional information 24..27 is followed by fewer than 1/2/4/8 bytes. -/
def EndsInsideHead (inp : Bytes) : Prop :=
  ∃ (pre : Bytes) (b : UInt8) (post : Bytes), inp = pre ++ b :: post ∧
    ((b.toNat % 32 = 24 ∧ post.length < 1) ∨ (b.toNat % 32 = 25 ∧ post.length < 2) ∨
     (b.toNat % 32 = 26 ∧ post.length < 4) ∨ (b.toNat % 32 = 27 ∧ post.length < 8))

/-- Some nine consecutive bytes form a head of one of the major types `ms` announcing `2^63` or more. -/
def AnnouncesHuge (ms : List Nat) (inp : Bytes) : Prop :=
  ∃ (pre : Bytes) (b : UInt8) (arg post : Bytes), inp = pre ++ b :: (arg ++ post) ∧
    b.toNat / 32 ∈ ms ∧ b.toNat % 32 = 27 ∧ arg.length = 8 ∧ 2 ^ 63 ≤ beNat arg

end Verif.Cbor.Spec
