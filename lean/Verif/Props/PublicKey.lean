import Verif.Spec.PublicKey
import Verif.Lemmas.WireShort
import Verif.Lemmas.WireMsg
/-!
C87: public keys keep their meaning.
-/
namespace Verif.PublicKey
open Verif
variable {S : Ssl}

theorem typeOf_num (t : MfgServer.KeyType) : typeOf (typeNum t) = some t := by cases t <;> decide
theorem encOf_num (e : Encoding) : Encoding.of e.num = some e := by cases e <;> decide

theorem form_numbers (k : PublicKey S) : Wire.KeyForm k.form := by
  refine ⟨?_, ?_⟩
  · show typeNum k.type ∈ _
    cases k.type <;> decide
  · show k.encoding.num ∈ _
    cases k.encoding <;> decide

theorem certs_de (L : S.Laws) (c : List S.Cert) : certsDe S (.arr (c.map fun x => .bytes (S.derOfCert x))) = some c := by
  have := Wire.deAll_map (f := fun | .bytes b => S.certOfDer b | _ => none) (g := fun x => Wire.Item.bytes (S.derOfCert x)) (k := id) (l := c)
    fun a _ => L.cert a
  rw [List.map_id] at this
  exact this

theorem chain_back (L : S.Laws) {c : List S.Cert} (h : (chainToVec c).length < 2 ^ 64) : chainFromSlice S (chainToVec c) = some c := by
  rw [chainFromSlice, chainToVec, Wire.fromSlice_fits (by simp [Wire.Item.Fits]) h]
  exact certs_de L c

theorem new_coherent {t : MfgServer.KeyType} {e : Encoding} {d : Bytes} {k : PublicKey S} (h : new S t e d = .ok k) :
    Coherent S k ∧ k.type = t ∧ k.encoding = e ∧ k.data = d := by
  rw [new] at h
  cases hp : parseData S t e d with
  | err x => rw [hp] at h; cases h
  | panic => rw [hp] at h; cases h
  | ok p =>
    rw [hp] at h
    cases h
    refine ⟨?_, rfl, rfl, rfl⟩
    rw [parseData.eq_def] at hp
    split at hp
    · split at hp
      · cases hp
      · rename_i hk
        cases hp
        exact .x509 hk
    · split at hp
      · cases hp
      · split at hp
        · cases hp
        · cases hp
        · rename_i hc
          split at hp
          · cases hp
          · rename_i hk
            cases hp
            exact .chain hc hk
    · cases hp
    · cases hp

theorem coherent_new {k : PublicKey S} (h : Coherent S k) : new S k.type k.encoding k.data = .ok k := by
  cases h with
  | x509 h => simp only [new, parseData, h]
  | chain h1 h2 =>
    rename_i d k leaf more
    have hd : d.isEmpty = false := by
      cases d with
      | nil => cases h1
      | cons => rfl
    simp only [new, parseData, h1, h2, hd, Bool.false_eq_true, if_false]

theorem ofForm_coherent {x : Int × Int × Bytes} {k : PublicKey S} (h : ofForm S x = some k) : Coherent S k := by
  rw [ofForm] at h
  split at h
  · split at h
    · rename_i hk
      cases h
      exact (new_coherent hk).1
    · cases h
  · cases h

theorem form_back {k : PublicKey S} (h : Coherent S k) : ofForm S k.form = some k := by
  simp only [ofForm, PublicKey.form, typeOf_num, encOf_num, coherent_new h]

theorem read_write {k : PublicKey S} (h : Coherent S k) (hl : k.data.length < 2 ^ 32) : read S k.write = some k := by
  rw [read, PublicKey.write, Wire.Codec.read_write (Wire.publicKey_de (form_numbers k)) (Wire.publicKey_solid (form_numbers k) 126).fits
    (Nat.lt_of_le_of_lt (Wire.publicKey_le k.form) (by show k.data.length + 36 < _; omega))]
  exact form_back h

theorem type_of {k : S.Key} {t : MfgServer.KeyType} : typeFromKey k = .ok t ↔ IsType t (S.kind k) := by
  rw [typeFromKey]
  split <;> rename_i h <;> (try rw [h])
  · exact ⟨fun e => by cases e; exact .p256, fun e => by cases e; rfl⟩
  · exact ⟨fun e => by cases e; exact .p384, fun e => by cases e; rfl⟩
  · exact ⟨fun e => by cases e; exact .rsa2048, fun e => by cases e; rfl⟩
  · exact ⟨fun e => by cases e; exact .rsa3072, fun e => by cases e; rfl⟩
  · rename_i h2 h3 h4
    constructor
    · intro e; cases e
    · intro e
      generalize S.kind k = y at *
      cases e <;> exact absurd rfl ‹_›

/-- C87: whichever way a public key came about, its key and its certificates are those of its data; made of a certificate chain, this
goes for chains of less than 2^64 bytes. -/
theorem C87_parts (L : S.Laws) {k : PublicKey S} (h : Obtained S k) (hl : k.data.length < 2 ^ 64) : Coherent S k := by
  cases h with
  | read h =>
    obtain ⟨x, _, hx⟩ := Option.bind_eq_some_iff.1 h
    exact ofForm_coherent hx
  | chain h =>
    rw [ofChain.eq_def] at h
    split at h
    · cases h
    · split at h
      · cases h
      · rename_i hk
        split at h
        · cases h
          exact .chain (chain_back L hl) hk
        · cases h
        · cases h
  | cert h =>
    rw [ofCert] at h
    split at h
    · cases h
    · split at h
      · cases h
        exact .x509 (L.key _)
      · cases h
      · cases h

/-- C87: a public key that was written is read as itself, with the same type, key and certificates. -/
theorem C87_read_back (L : S.Laws) {k : PublicKey S} (h : Obtained S k) (hl : k.data.length < 2 ^ 32) : read S k.write = some k :=
  read_write (C87_parts L h (by omega)) hl

/-- C87: keys which are written alike are the same. -/
theorem C87_differ (L : S.Laws) {k k' : PublicKey S} (h : Obtained S k) (h' : Obtained S k') (hl : k.data.length < 2 ^ 32)
    (hl' : k'.data.length < 2 ^ 32) (he : k.write = k'.write) : k = k' := by
  have h1 := C87_read_back L h hl
  rw [he, C87_read_back L h' hl'] at h1
  exact (Option.some.inj h1).symm

/-- C87: the key made of a certificate is the certificate's, with its right type; there is one iff the certificate's key has a type. -/
theorem C87_of_certificate (c : S.Cert) (t : MfgServer.KeyType) (p : S.Key) :
    (S.certKey c = some p ∧ IsType t (S.kind p)) ↔ ∃ k, ofCert c = .ok k ∧ k.type = t ∧ k.pkey = p ∧ k.certs = none := by
  constructor
  · rintro ⟨h1, h2⟩
    exact ⟨⟨t, .x509, S.derOfKey p, p, none⟩, by simp only [ofCert, h1, type_of.2 h2], rfl, rfl, rfl⟩
  · rintro ⟨k, h, rfl, rfl, _⟩
    rw [ofCert] at h
    split at h
    · cases h
    · rename_i hk
      split at h
      · rename_i ht
        cases h
        exact ⟨hk, type_of.1 ht⟩
      · cases h
      · cases h

/-- C87: the key made of a chain is that of its first certificate, with its right type, and has the whole chain; there is one iff the
first certificate's key has a type. -/
theorem C87_of_chain (c : List S.Cert) (t : MfgServer.KeyType) (p : S.Key) :
    (∃ leaf more, c = leaf :: more ∧ S.certKey leaf = some p ∧ IsType t (S.kind p)) ↔
      ∃ k, ofChain c = .ok k ∧ k.type = t ∧ k.pkey = p ∧ k.certs = some c := by
  constructor
  · rintro ⟨leaf, more, rfl, h1, h2⟩
    exact ⟨⟨t, .x5chain, chainToVec (leaf :: more), p, some (leaf :: more)⟩, by simp only [ofChain, h1, type_of.2 h2], rfl, rfl, rfl⟩
  · rintro ⟨k, h, rfl, rfl, _⟩
    rw [ofChain.eq_def] at h
    split at h
    · cases h
    · split at h
      · cases h
      · rename_i hk
        split at h
        · rename_i ht
          cases h
          exact ⟨_, _, rfl, hk, type_of.1 ht⟩
        · cases h
        · cases h

/-- C87, partial: a public key that was read has the right type if it was made of a certificate or a chain before it was written. Missing:
keys written by somebody else, see `C87_type_violated`. -/
theorem C87_type_partial (L : S.Laws) {k k' : PublicKey S} (h : (∃ c, ofCert c = .ok k) ∨ ∃ c, ofChain c = .ok k)
    (hl : k.data.length < 2 ^ 32) (hr : read S k.write = some k') : IsType k'.type (S.kind k'.pkey) := by
  have ho : Obtained S k := by
    rcases h with ⟨c, h⟩ | ⟨c, h⟩
    · exact .cert h
    · exact .chain h
  cases hr.symm.trans (C87_read_back L ho hl)
  rcases h with ⟨c, h⟩ | ⟨c, h⟩
  · have hc : k.certs = none := by
      rw [ofCert] at h
      split at h
      · cases h
      · split at h <;> cases h
        rfl
    exact ((C87_of_certificate c _ _).2 ⟨k, h, rfl, rfl, hc⟩).2
  · have hc : k.certs = some c := by
      rw [ofChain.eq_def] at h
      split at h
      · cases h
      · split at h
        · cases h
        · split at h <;> cases h
          rfl
    obtain ⟨_, _, _, _, ht⟩ := (C87_of_chain c _ _).2 ⟨k, h, rfl, rfl, hc⟩
    exact ht

/-- C87: a key without key is not read: neither an encoding other than X.509 and chain, nor an empty chain. -/
theorem C87_not_read {b : Bytes} {k : PublicKey S} (h : read S b = some k) :
    (k.encoding = .x509 ∧ k.certs = none) ∨ (k.encoding = .x5chain ∧ ∃ leaf more, k.certs = some (leaf :: more) ∧ S.certKey leaf = some k.pkey) := by
  obtain ⟨x, _, hx⟩ := Option.bind_eq_some_iff.1 h
  cases ofForm_coherent hx with
  | x509 h => exact .inl ⟨rfl, rfl⟩
  | chain h1 h2 => exact .inr ⟨rfl, _, _, rfl, h2⟩

/-! ### Public keys in messages -/

/-- The public keys there can be, as values of a type. -/
def Given (S : Ssl) := { k : PublicKey S // Obtained S k ∧ k.data.length < 2 ^ 32 }

/-- The forms of data-formats for an environment whose public keys and chains are those of this model; `toKey` and `ofKey` say so.
Rendezvous info and extra data as in `F`. -/
noncomputable def forms {E : Env} (S : Ssl) (F : Wire.Forms E) (toKey : E.Pub → Given S) (ofKey : Given S → E.Pub)
    (toChain : E.Chain → List S.Cert) (ofChain : List S.Cert → E.Chain) : Wire.Forms E :=
  { F with
    pub := fun p => (toKey p).1.form
    pubOf := fun x => (ofForm S x).bind fun k =>
      open Classical in if h : Obtained S k ∧ k.data.length < 2 ^ 32 then some (ofKey ⟨k, h⟩) else none
    chain := fun c => (toChain c).map S.derOfCert
    chainOf := fun l => (Wire.Codec.deAll (fun | .bytes b => S.certOfDer b | _ => none) (l.map .bytes)).map ofChain }

/-- C87: what C83 and C86 ask of public keys and chains holds for those of data-formats. -/
theorem C87_forms {E : Env} (L : S.Laws) (F : Wire.Forms E) {toKey : E.Pub → Given S} {ofKey : Given S → E.Pub}
    {toChain : E.Chain → List S.Cert} {ofChain : List S.Cert → E.Chain} (h1 : ∀ p, ofKey (toKey p) = p)
    (h2 : ∀ c, ofChain (toChain c) = c) (hrv : ∀ r, F.rvOf (F.rv r) = r) (hv : ∀ r, ∀ d ∈ F.rv r, ∀ x ∈ d, x.1 < 15)
    (he : ∀ e, F.extraOf (F.extra e) = e) (hs : ∀ e, ∀ x ∈ F.extra e, x.1 < 2 ^ 64) :
    (forms S F toKey ofKey toChain ofChain).Laws where
  pub p := by
    obtain ⟨ho, hl⟩ := (toKey p).2
    simp only [forms, form_back (C87_parts L ho (by omega)), Option.bind_some]
    rw [dif_pos ⟨ho, hl⟩]
    exact congrArg some (h1 p)
  type p := form_numbers (toKey p).1
  size p := (toKey p).2.2
  rv := hrv
  vars := hv
  chain c := by
    have := certs_de L (toChain c)
    simp only [certsDe] at this
    simp only [forms, List.map_map]
    erw [this]
    exact congrArg some (h2 c)
  extra := he
  small := hs

/-! ### Examples -/

namespace Toy

/-- An OpenSSL whose keys are bytes, the first of which is their kind; a certificate is a number and a key. -/
def ssl : Ssl where
  Key := Bytes
  Cert := UInt8 × Bytes
  keyOfDer b := some b
  derOfKey k := k
  certOfDer
    | [] => none
    | n :: k => some (n, k)
  derOfCert c := c.1 :: c.2
  certKey c := if c.2 = [] then none else some c.2
  kind
    | 1 :: _ => .p256
    | 2 :: _ => .p384
    | 3 :: _ => .rsa 2048
    | 4 :: _ => .rsa 3072
    | 5 :: _ => .rsa 1024
    | _ => .other

theorem laws : ssl.Laws := ⟨fun _ => rfl, fun _ => rfl⟩

/-- A key of a chain of two certificates, and its form. -/
def key : PublicKey ssl := ⟨.ecdsa384, .x5chain, [0x82, 0x43, 7, 2, 9, 0x43, 8, 1, 1], [2, 9], some [(7, [2, 9]), (8, [1, 1])]⟩

theorem made : ofChain (S := ssl) [(7, [2, 9]), (8, [1, 1])] = .ok key := rfl

example : key.write = [0x83, 11, 2, 0x49, 0x82, 0x43, 7, 2, 9, 0x43, 8, 1, 1] := by decide +kernel
example : read ssl key.write = some key := C87_read_back laws (.chain made) (by decide)
example : IsType key.type (ssl.kind key.pkey) :=
  C87_type_partial laws (.inr ⟨_, made⟩) (by decide) (C87_read_back laws (.chain made) (by decide))
example : ∃ k, ofCert (S := ssl) (7, [3, 1]) = .ok k ∧ k.type = .rsa2048 ∧ k.pkey = [3, 1] ∧ k.certs = none :=
  (C87_of_certificate (S := ssl) (7, [3, 1]) .rsa2048 [3, 1]).1 ⟨rfl, .rsa2048⟩
/-- A certificate with an RSA key of 1024 bits gives no public key. -/
example : ofCert (S := ssl) (7, [5, 1]) = .err .unsupported := rfl

/-- An RSA key of 1024 bits, declared to be on the curve P-384. -/
def false_ : PublicKey ssl := ⟨.ecdsa384, .x509, [5, 1], [5, 1], none⟩

theorem read_false : read ssl false_.write = some false_ := read_write (.x509 rfl) (by decide)

end Toy

/-- C87 fails: the type of a public key that is read is not that of the key, which may even have none. -/
theorem C87_type_violated :
    ∃ (S : Ssl) (_ : S.Laws) (b : Bytes) (k : PublicKey S), read S b = some k ∧ ∀ t, ¬ IsType t (S.kind k.pkey) := by
  refine ⟨Toy.ssl, Toy.laws, _, _, Toy.read_false, fun t h => ?_⟩
  have h' : IsType t (.rsa 1024) := h
  cases h'

/-- C87 fails: a public key of one type is read as one of another. -/
theorem C87_declared_violated :
    ∃ (S : Ssl) (_ : S.Laws) (k k' : PublicKey S), (∃ c, ofCert c = .ok k) ∧ read S k'.write = some k' ∧ k'.pkey = k.pkey ∧
      k'.type ≠ k.type :=
  ⟨Toy.ssl, Toy.laws, ⟨.rsa2048, .x509, [3, 1], [3, 1], none⟩, ⟨.ecdsa384, .x509, [3, 1], [3, 1], none⟩, ⟨(7, [3, 1]), rfl⟩,
    read_write (.x509 rfl) (by decide), rfl, by decide⟩

end Verif.PublicKey
