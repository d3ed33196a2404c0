import Verif.Lemmas.Voucher
/-!
A concrete environment, used only in examples and in witnesses of violations: it shows that the
assumptions about external functions (`CodecLaws`, `LeafLaws`, `GoodKey`, …) can be met. Keys are
single bytes, a signature is the signing key, digests are a checksum padded to the right length; the
codecs write genuine CBOR (8-byte lengths).
-/
namespace Verif.Toy
open Verif Verif.Cbor Verif.Cbor.Spec Verif.Voucher

/-- CBOR byte string with an 8-byte length. -/
def encBytes (b : Bytes) : Bytes := 0x5b :: (toBe 8 b.length ++ b)

/-- Read one such byte string from the front. -/
def takeBytes : Bytes → Option (Bytes × Bytes)
  | 0x5b :: r =>
    if r.length < 8 + beNat (r.take 8) then none
    else some ((r.drop 8).take (beNat (r.take 8)), (r.drop 8).drop (beNat (r.take 8)))
  | _ => none

/-- Decoders accept exactly one item. -/
def whole {α : Type} (take : Bytes → Option (α × Bytes)) (b : Bytes) : Option α :=
  match take b with
  | some (a, []) => some a
  | _ => none

theorem takeBytes_enc {b : Bytes} (h : b.length < 2 ^ 63) (rest : Bytes) :
    takeBytes (encBytes b ++ rest) = some (b, rest) := by
  have hl : (toBe 8 b.length).length = 8 := toBe_length _ _
  have e1 : (toBe 8 b.length ++ b ++ rest).take 8 = toBe 8 b.length := by
    rw [List.append_assoc, List.take_append_of_le_length (by omega), List.take_of_length_le (by omega)]
  have e2 : (toBe 8 b.length ++ b ++ rest).drop 8 = b ++ rest := by
    rw [List.append_assoc, List.drop_append_of_le_length (by omega), List.drop_of_length_le (by omega)]
    rfl
  have e3 : beNat (toBe 8 b.length) = b.length := beNat_toBe _ _ (by omega)
  simp only [encBytes, List.cons_append, takeBytes, e1, e2, e3]
  rw [if_neg (by simp [hl])]
  simp

theorem isItem_encBytes {b : Bytes} (h : b.length < 2 ^ 63) : IsItem (encBytes b) := by
  have hh : IsHead 2 (beNat (toBe 8 b.length)) (UInt8.ofNat (32 * 2 + 27) :: toBe 8 b.length) :=
    .ext8 (by omega) (toBe_length _ _)
  rw [beNat_toBe _ _ (by omega)] at hh
  exact IsItem.str (m := 2) (by simp) hh rfl h

/-- Hash type items: -16, -43, 5, 6. -/
def encType : HashType → Bytes
  | .sha256 => [0x2f]
  | .sha384 => [0x38, 0x2a]
  | .hmacSha256 => [0x05]
  | .hmacSha384 => [0x06]

def takeType : Bytes → Option (HashType × Bytes)
  | 0x2f :: r => some (.sha256, r)
  | 0x38 :: 0x2a :: r => some (.sha384, r)
  | 0x05 :: r => some (.hmacSha256, r)
  | 0x06 :: r => some (.hmacSha384, r)
  | _ => none

theorem takeType_enc (t : HashType) (rest : Bytes) : takeType (encType t ++ rest) = some (t, rest) := by
  cases t <;> rfl

theorem isItem_encType (t : HashType) : IsItem (encType t) := by
  cases t with
  | sha256 => exact .int (m := 1) (v := 15) (by simp) (.imm (by omega) (by omega))
  | sha384 => exact .int (m := 1) (v := 42) (by simp) (.ext1 (m := 1) (arg := [0x2a]) (by omega) rfl)
  | hmacSha256 => exact .int (m := 0) (v := 5) (by simp) (.imm (by omega) (by omega))
  | hmacSha384 => exact .int (m := 0) (v := 6) (by simp) (.imm (by omega) (by omega))

/-- `[type, value]`. -/
def encHash (h : Hash) : Bytes := 0x82 :: (encType h.type ++ encBytes h.value)

def takeHash : Bytes → Option (Hash × Bytes)
  | 0x82 :: r =>
    match takeType r with
    | some (t, r) =>
      match takeBytes r with
      | some (v, r) => some (⟨t, v⟩, r)
      | none => none
    | none => none
  | _ => none

theorem takeHash_enc {h : Hash} (hl : h.value.length < 2 ^ 63) (rest : Bytes) :
    takeHash (encHash h ++ rest) = some (h, rest) := by
  simp only [encHash, List.cons_append, List.append_assoc, takeHash, takeType_enc, takeBytes_enc hl]

theorem encHash_len (h : Hash) : h.value.length < (encHash h).length := by
  simp [encHash, encBytes]; omega

theorem isItem_encHash {h : Hash} (hl : h.value.length < 2 ^ 63) : IsItem (encHash h) := by
  have := IsItem.array (v := 2) (h := [UInt8.ofNat (32 * 4 + 2)]) (items := [encType h.type, encBytes h.value])
    (.imm (by omega) (by omega)) rfl (by
      intro i hi
      simp only [List.mem_cons, List.not_mem_nil, or_false] at hi
      rcases hi with rfl | rfl
      · exact isItem_encType _
      · exact isItem_encBytes hl)
  simpa [encHash] using this

/-- Text as a byte string of 4-byte code points (stands in for UTF-8). -/
def textBytes (s : List Char) : Bytes := (s.map (fun ch => toBe 4 ch.toNat)).flatten

def bytesText : Nat → Bytes → List Char
  | 0, _ => []
  | n + 1, b => Char.ofNat (beNat (b.take 4)) :: bytesText n (b.drop 4)

theorem bytesText_text (s : List Char) : bytesText s.length (textBytes s) = s := by
  induction s with
  | nil => rfl
  | cons ch s ih =>
    have hl : (toBe 4 ch.toNat).length = 4 := toBe_length _ _
    have hc : ch.toNat < 2 ^ 32 := ch.val.toNat_lt
    simp only [textBytes, List.map_cons, List.flatten_cons, List.length_cons, bytesText]
    rw [List.take_append_of_le_length (by omega), List.take_of_length_le (by omega),
      List.drop_append_of_le_length (by omega), List.drop_of_length_le (by omega),
      beNat_toBe _ _ (by omega)]
    simp only [List.nil_append]
    have := ih
    unfold textBytes at this
    rw [this, Char.ofNat_toNat]

theorem textBytes_length (s : List Char) : (textBytes s).length = 4 * s.length := by
  induction s with
  | nil => rfl
  | cons ch s ih =>
    simp only [textBytes, List.map_cons, List.flatten_cons, List.length_append, toBe_length,
      List.length_cons] at ih ⊢
    omega

def encText (s : String) : Bytes := encBytes (textBytes s.toList)

def decText (b : Bytes) : Option String :=
  match whole takeBytes b with
  | some t => some (String.ofList (bytesText (t.length / 4) t))
  | none => none

/-- Extra data of an entry: absent or a byte string. -/
def encExtra : Option Bytes → Bytes
  | none => [0x00]
  | some e => 0x01 :: encBytes e

def takeExtra : Bytes → Option (Option Bytes × Bytes)
  | 0x00 :: r => some (none, r)
  | 0x01 :: r =>
    match takeBytes r with
    | some (e, r) => some (some e, r)
    | none => none
  | _ => none

def encPayload (p : EntryPayload UInt8 Bytes) : Bytes :=
  encHash p.hashPrev ++ (encHash p.hashHdrInfo ++ (encExtra p.extra ++ [p.publicKey]))

def decPayload (b : Bytes) : Option (EntryPayload UInt8 Bytes) :=
  match takeHash b with
  | some (h1, r) =>
    match takeHash r with
    | some (h2, r) =>
      match takeExtra r with
      | some (x, [k]) => some ⟨h1, h2, x, k⟩
      | _ => none
    | none => none
  | none => none

/-- A checksum padded to the length of the digest. -/
def digest (t : HashType) (d : Bytes) : Bytes :=
  List.replicate (t.digestSize - 2) 0 ++ [d.foldl (· + ·) 0, UInt8.ofNat d.length]

/-- The toy environment. -/
@[reducible] def env : Env where
  Pub := UInt8
  Priv := UInt8
  Rv := Unit
  Chain := UInt8
  Extra := Bytes
  digest := digest
  keyMatches p k := p == k
  sign k _ := some ([], [k])
  verify p _ _ sig := sig == [p]
  coseOk _ _ := true
  encBytes := encBytes
  decBytes := whole takeBytes
  encVersion n := 0x1b :: toBe 8 n
  decVersion b := match b with
    | 0x1b :: r => some (beNat r)
    | _ => none
  encGuid := encBytes
  decGuid := whole takeBytes
  encText := encText
  decText := decText
  encPub p := [0x18, p]
  decPub b := match b with
    | [0x18, p] => some p
    | _ => none
  encHash := encHash
  decHash := whole takeHash
  encHashOpt o := match o with
    | none => [0xf6]
    | some h => encHash h
  decHashOpt b := if b = [0xf6] then some none else (whole takeHash b).map some
  encRv _ := [0x80]
  decRv b := if b = [0x80] then some () else none
  encChainOpt o := match o with
    | none => [0xf6]
    | some p => [0x18, p]
  decChainOpt b := match b with
    | [0xf6] => some none
    | [0x18, p] => some (some p)
    | _ => none
  encPayload := encPayload
  decPayload := decPayload

theorem whole_of {α : Type} {take : Bytes → Option (α × Bytes)} {b : Bytes} {a : α}
    (h : take (b ++ []) = some (a, [])) : whole take b = some a := by
  rw [List.append_nil] at h
  simp only [whole, h]

theorem codecLaws : CodecLaws env where
  bytes_dec b h := whole_of (takeBytes_enc h [])
  bytes_item b h := isItem_encBytes h
  payload_dec p h := by
    obtain ⟨h1, h2, x, k⟩ := p
    simp only [encPayload, List.length_append] at h
    have l1 := encHash_len h1
    have l2 := encHash_len h2
    simp only [env, encPayload, decPayload]
    rw [takeHash_enc (by omega)]
    simp only
    rw [takeHash_enc (by omega)]
    simp only
    cases x with
    | none => rfl
    | some e =>
      have : e.length < 2 ^ 63 := by
        have : (encExtra (some e)).length = 1 + (1 + ((toBe 8 e.length).length + e.length)) := by
          simp only [encExtra, encBytes, List.length_cons, List.length_append]; omega
        omega
      simp only [encExtra, List.cons_append, takeExtra, takeBytes_enc this]

theorem leafLaws : LeafLaws env where
  version_dec n h := by
    simp only
    rw [beNat_toBe _ _ (by rcases h with rfl | rfl <;> omega)]
  version_item n h := by
    have hh : IsHead 0 (beNat (toBe 8 n)) (UInt8.ofNat (32 * 0 + 27) :: toBe 8 n) :=
      .ext8 (by omega) (toBe_length _ _)
    exact .int (m := 0) (by simp) hh
  guid_dec g h := whole_of (takeBytes_enc (by omega) [])
  guid_item g h := isItem_encBytes (by omega)
  text_dec s h := by
    have h' : (textBytes s.toList).length < 2 ^ 63 := by
      simp [encText, encBytes] at h; omega
    simp only [decText, encText]
    rw [whole_of (takeBytes_enc h' [])]
    simp only [textBytes_length, Option.some.injEq]
    rw [Nat.mul_div_cancel_left _ (by omega), bytesText_text, String.ofList_toList]
  text_item s h := isItem_encBytes (by simp [encText, encBytes] at h; omega)
  pub_dec p _ := rfl
  pub_item p _ := .int (m := 0) (by simp) (.ext1 (m := 0) (arg := [p]) (by omega) rfl)
  rv_dec _ _ := rfl
  rv_item _ _ := by
    have := IsItem.array (v := 0) (h := [UInt8.ofNat (32 * 4 + 0)]) (items := [])
      (.imm (by omega) (by omega)) rfl (by simp)
    exact this
  hash_dec h hl := whole_of (takeHash_enc (by have := encHash_len h; have hl : (encHash h).length < _ := hl; omega) [])
  hash_item h hl := isItem_encHash (by have := encHash_len h; have hl : (encHash h).length < _ := hl; omega)
  hashOpt_dec o hl := by
    cases o with
    | none => rfl
    | some h =>
      have hs : h.value.length < 2 ^ 63 := by
        have := encHash_len h; have hl : (encHash h).length < _ := hl; omega
      simp only
      rw [if_neg (by simp [encHash]), whole_of (takeHash_enc hs [])]
      rfl
  hashOpt_item h hl := isItem_encHash (by have := encHash_len h; have hl : (encHash h).length < _ := hl; omega)
  hashOpt_none := rfl
  chainOpt_dec o _ := by cases o <;> rfl
  chainOpt_item h _ := .int (m := 0) (by simp) (.ext1 (m := 0) (arg := [h]) (by omega) rfl)
  chainOpt_none := rfl

theorem goodKey (k : UInt8) : GoodKey env k := by
  intro payload _
  refine ⟨[], [k], rfl, by simp, by simp, rfl, ?_⟩
  intro pub h
  have h' : (pub == k) = true := h
  have : pub = k := by simpa using h'
  subst this
  simp

theorem digest_length (t : HashType) (d : Bytes) : (digest t d).length = t.digestSize := by
  cases t <;> simp [digest, HashType.digestSize]

theorem smallPayload (n : UInt8) : SmallPayload env none n := by
  intro t d t' d'
  have e : ∀ t d, (encHash ⟨t, digest t d⟩).length ≤ 100 := by
    intro t d
    have := digest_length t d
    cases t <;> simp [encHash, encType, encBytes, toBe_length, HashType.digestSize] at this ⊢ <;> omega
  have h1 := e t d
  have h2 := e t' d'
  simp only [encPayload, List.length_append, encExtra, List.length_cons, List.length_nil]
  omega

end Verif.Toy
