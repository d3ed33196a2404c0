import Verif.Props.Life
import Verif.Props.To0Example
import Verif.Props.MfgRunExample
/-!
A concrete device, manufacturer, rendezvous server and owner, which meet the hypotheses of `C78_voucher` and `C78_onboards_partial`: the
device with key 9 is manufactured; its voucher is made out to the owner 11, who transfers it to the owner 12; the owner 12 registers
with the rendezvous server and onboards the device, which is told to reboot.
-/
namespace Verif.Life
open Verif Verif.Voucher Verif.Store Verif.Types Verif.Fs

namespace Toy
open Verif.RvServer.Toy (aead guid)
open Verif.Device.Toy (sized)

/-! ### A codec for credentials -/

/-- Each byte of a string is preceded by 1; the end is 0. -/
def put : Bytes → Bytes
  | [] => [0]
  | b :: l => 1 :: b :: put l

def get : Bytes → Option (Bytes × Bytes)
  | 0 :: r => some ([], r)
  | 1 :: b :: r => (get r).map fun x => (b :: x.1, x.2)
  | _ => none

theorem get_put (l r : Bytes) : get (put l ++ r) = some (l, r) := by
  induction l with
  | nil => rfl
  | cons b l ih =>
    show (get (put l ++ r)).map _ = _
    rw [ih]
    rfl

def getAll : Nat → Bytes → Option (List Bytes)
  | 0, _ => some []
  | n + 1, b => (get b).bind fun x => (getAll n x.2).map (x.1 :: ·)

theorem getAll_put (l : List Bytes) (r : Bytes) : getAll l.length (l.flatMap put ++ r) = some l := by
  induction l with
  | nil => rfl
  | cons b l ih =>
    rw [List.flatMap_cons, List.append_assoc, List.length_cons]
    simp only [getAll, get_put, Option.bind_some, ih, Option.map_some]

def encKeys : Credential.KeyStorage → List Bytes
  | .plain a b => [[0], a, b, [], []]
  | .tpm a b c d => [[1], a, b, c, d]

def encCred (c : Credential.Cred) : Bytes :=
  ([[if c.active then 1 else 0], List.replicate c.version 1, Verif.Toy.textBytes c.info, c.guid, c.rvinfo, Verif.Toy.encType c.keyHash.type,
    c.keyHash.value] ++ encKeys c.keys).flatMap put

def decCred (b : Bytes) : Option Credential.Cred :=
  match getAll 12 b with
  | some [a, v, i, g, r, t, h, k, k1, k2, k3, k4] =>
    (Verif.Toy.takeType t).map fun t => ⟨a == [1], v.length, Verif.Toy.bytesText (i.length / 4) i, g, r, ⟨t.1, h⟩,
      if k = [0] then .plain k1 k2 else .tpm k1 k2 k3 k4⟩
  | _ => none

theorem decCred_enc (c : Credential.Cred) : decCred (encCred c) = some c := by
  obtain ⟨a, v, i, g, r, ⟨t, h⟩, k⟩ := c
  have ht : Verif.Toy.takeType (Verif.Toy.encType t) = some (t, []) := by
    have := Verif.Toy.takeType_enc t []
    rwa [List.append_nil] at this
  have hi : Verif.Toy.bytesText ((Verif.Toy.textBytes i).length / 4) (Verif.Toy.textBytes i) = i := by
    rw [Verif.Toy.textBytes_length, Nat.mul_div_cancel_left _ (by omega), Verif.Toy.bytesText_text]
  cases k with
  | plain x y =>
    have := getAll_put [[if a then 1 else 0], List.replicate v 1, Verif.Toy.textBytes i, g, r, Verif.Toy.encType t, h, [0], x, y, [], []] []
    rw [List.append_nil] at this
    simp only [List.length_cons, List.length_nil, Nat.zero_add, Nat.reduceAdd] at this
    simp only [decCred, encCred, encKeys, List.cons_append, List.nil_append, this, ht, hi, Option.map_some, List.length_replicate, if_true]
    cases a <;> rfl
  | tpm x y z w =>
    have := getAll_put [[if a then 1 else 0], List.replicate v 1, Verif.Toy.textBytes i, g, r, Verif.Toy.encType t, h, [1], x, y, z, w] []
    rw [List.append_nil] at this
    simp only [List.length_cons, List.length_nil, Nat.zero_add, Nat.reduceAdd] at this
    simp only [decCred, encCred, encKeys, List.cons_append, List.nil_append, this, ht, hi, Option.map_some, List.length_replicate]
    cases a <;> rfl

/-! ### The environment -/

/-- That of the other examples, with the certificates of `MfgExample`, the HMACs of `MfgRunExample` and the codec above. -/
@[reducible] def env : Whole where
  toDevEnv := { Device.Toy.env with
    certs := fun (p : UInt8) => if p = 100 then [(100, 100)] else [(p.toNat, 100), (100, 100)]
    H := ⟨fun t k d => Verif.Toy.digest t (k ++ d), fun _ _ _ => none⟩
    codec := ⟨encCred, decCred⟩ }
  mkChain (l : List (Nat × Nat)) := match l with
    | [] => (0 : UInt8)
    | x :: _ => UInt8.ofNat x.1
  der (q : Nat × Nat) := some [UInt8.ofNat q.1]
  keyFromDer b := match b with
    | [x] => some x.toNat
    | _ => none
  build f _ := if (show Nat from f.key) < 100 then some ((show Nat from f.key), (100 : Nat)) else none
  trim s := s
  decAppStart b := some b
  decMfgInfo b := some (some (String.ofList (Verif.Toy.bytesText (b.length / 4) b)))
  decSetHmac := MfgServer.Toy.decSetHmac
  decConnect := MfgServer.Toy.decConnect
  encAccept b := b
  decRequestKey b := decide (b = [3])
  decProvideKey := MfgServer.Toy.decProvideKey
  signNonce k n p := if n.length < 100 ∧ p.length < 5000 then some (n, [(k : UInt8)]) else none
  encKeyUnprot k := Verif.Toy.encBytes [(k : UInt8)]
  SignKey := UInt8
  signPub k := some [k]
  signPriv k := some [k]
  signFromDer b := b.head?
  tpmPub b := some b
  pubChain p := some p
  hashCert t q := Verif.Toy.digest t [UInt8.ofNat (show Nat × Nat from q).1]
  pemCerts _ := some [((100 : Nat), (100 : Nat))]
  protNonce b := some (some b)
  encConnect := MfgServer.Toy.encConnect
  decAccept b := some b
  encRequestKey := [3]
  decKeyParams b := if b = [4] then some (.ecdsa384, some [.tpm, .fileSystem]) else none
  encProvideKey := MfgServer.Toy.encProvideKey
  decDiunDone b := if b = [5] then some .serialNumber else none
  encAppStart i := Verif.Toy.textBytes i.toList
  encSetHmac := MfgServer.Toy.encSetHmac
  decDiDone b := if b = [2] then some () else none

/-- The manufacturer 7 makes vouchers out to the owner 11. -/
def mset : MfgServer.Settings env.mfg :=
  ⟨some (100 : UInt8), some [((100 : Nat), (100 : Nat))], some ((7 : Nat), (7 : Nat)), some (some (7 : UInt8)),
    some (some (11 : UInt8)), some (some ⟨.serialNumber, .ecdsa384, [.fileSystem], (20 : UInt8), (20 : UInt8)⟩), some (), none, false⟩

def mcfg : MfgServer.Config env.mfg :=
  ⟨((7 : Nat), (7 : Nat)), some (7 : UInt8), (100 : UInt8), (100 : UInt8), some (11 : UInt8), (), false,
    some ⟨.serialNumber, .ecdsa384, [.fileSystem], (20 : UInt8), (20 : UInt8)⟩, false⟩

/-- The owner 12 trusts the device CA 100. -/
def cfg : OwnerServer.Config env.toOwnerEnv := ⟨(12 : UInt8), (12 : UInt8), (13 : UInt8), (13 : UInt8), some [((100 : Nat), (100 : Nat))], 600, 61⟩

/-- So does the rendezvous server, which also trusts the manufacturer 7 and grants 100 seconds. -/
def rcfg : RvServer.Config env.toRvEnv := ⟨100, some [((7 : Nat), (7 : Nat))], some [((100 : Nat), (100 : Nat))]⟩

theorem started : MfgServer.startup env.mfg mset = some mcfg := rfl

theorem leafLaws : LeafLaws env.E :=
  ⟨Verif.Toy.leafLaws.1, Verif.Toy.leafLaws.2, Verif.Toy.leafLaws.3, Verif.Toy.leafLaws.4, Verif.Toy.leafLaws.5,
    Verif.Toy.leafLaws.6, Verif.Toy.leafLaws.7, Verif.Toy.leafLaws.8, Verif.Toy.leafLaws.9, Verif.Toy.leafLaws.10,
    Verif.Toy.leafLaws.11, Verif.Toy.leafLaws.12, Verif.Toy.leafLaws.13, Verif.Toy.leafLaws.14, Verif.Toy.leafLaws.15,
    Verif.Toy.leafLaws.16, Verif.Toy.leafLaws.17, Verif.Toy.leafLaws.18⟩

theorem built {f : MfgServer.CertFields env.C} {k : env.E.Priv} {x : env.C.Cert} (h : env.build f k = some x) :
    ∃ n : Nat, f.key = n ∧ n < 100 ∧ x = (n, (100 : Nat)) := by
  have h : (if (show Nat from f.key) < 100 then some ((show Nat from f.key), 100) else none) = some x := h
  split at h
  · rename_i hk
    exact ⟨f.key, rfl, hk, (Option.some.inj h).symm⟩
  · cases h

theorem chain_certs (n : Nat) (h : n < 100) : env.certs (UInt8.ofNat n) = (n, (100 : Nat)) :: env.certs (100 : UInt8) := by
  have h1 : (UInt8.ofNat n).toNat = n := by simp; omega
  have h2 : UInt8.ofNat n ≠ 100 := by
    intro hh
    rw [hh] at h1
    have : (100 : UInt8).toNat = 100 := rfl
    omega
  change (if UInt8.ofNat n = 100 then [((100 : Nat), (100 : Nat))] else [((UInt8.ofNat n).toNat, 100), (100, 100)]) =
    (n, 100) :: (if (100 : UInt8) = 100 then [((100 : Nat), (100 : Nat))] else [((100 : UInt8).toNat, 100), (100, 100)])
  rw [if_neg h2, if_pos rfl, h1]

theorem mfgLaws : MfgServer.Laws env.mfg mcfg where
  codec := Device.Toy.codecLaws
  leaf := leafLaws
  chain_certs f x h := by
    obtain ⟨n, -, hn, rfl⟩ := built (k := mcfg.caKey) h
    exact chain_certs n hn
  built f k x h := by
    obtain ⟨n, hk, hn, rfl⟩ := built (k := k) h
    exact congrArg some hk.symm
  signing k _ := Verif.Toy.goodKey k
  payload o _ := Verif.Toy.smallPayload o

theorem trust : Trust mcfg cfg rcfg where
  issues f x h hi := by
    obtain ⟨n, hk, hn, rfl⟩ := built (k := mcfg.caKey) h
    have hi : some ((100 : Nat), (100 : Nat)) = some f.issuer := hi
    have hi := Option.some.inj hi
    rw [← hi]
    exact ⟨rfl, (100 : Nat), rfl, rfl⟩
  owner bag ca hb hc := by
    have hb : some [((100 : Nat), (100 : Nat))] = some bag := hb
    have hc : some ((100 : Nat), (100 : Nat)) = some ca := hc
    cases hb; cases hc
    exact .head _
  rendezvous bag ca hb hc := by
    have hb : some [((100 : Nat), (100 : Nat))] = some bag := hb
    have hc : some ((100 : Nat), (100 : Nat)) = some ca := hc
    cases hb; cases hc
    exact .head _
  manufacturer bag hb := by
    have hb : some [((7 : Nat), (7 : Nat))] = some bag := hb
    cases hb
    exact ⟨.head _, fun cert _ => ⟨_, rfl⟩⟩
  same pub k hp hk := by
    have hp : some (UInt8.ofNat 7) = some pub := hp
    have hk : some (7 : Nat) = some k := hk
    cases hp; cases hk
    rfl

theorem wireM : MfgClient.Wire env.cli mcfg MfgServer.Toy.encode where
  connect m _ h := (Option.some.inj ((MfgServer.Toy.decConnect_enc m).symm.trans h)).symm
  accept b b' h := (Option.some.inj (show some b = some b' from h)).symm
  token _ := rfl
  header _ := rfl
  provideKey d s x h := by
    cases s <;> exact (Option.some.inj (show some (d, _) = some x from h)).symm
  appStart i i' raw h h' := by
    cases (Option.some.inj (show some (Verif.Toy.textBytes i.toList) = some raw from h))
    change some (some (String.ofList (Verif.Toy.bytesText ((Verif.Toy.textBytes i.toList).length / 4) _))) = _ at h'
    rw [Verif.Toy.textBytes_length, Nat.mul_div_cancel_left _ (by omega), Verif.Toy.bytesText_text, String.ofList_toList] at h'
    exact (Option.some.inj (Option.some.inj h')).symm
  setHmac h h' e := by
    change (Verif.Toy.takeType (Verif.Toy.encType h.type ++ h.value)).map _ = _ at e
    rw [Verif.Toy.takeType_enc] at e
    exact (Option.some.inj e).symm
  payload b h := by
    change b.length < 2 ^ 63
    omega
  keyUnprot d _ := Verif.Toy.isItem_encBytes (by simp)
  sizes d n p prot sg _ h := by
    change (if n.length < 100 ∧ p.length < 5000 then some (n, [(show UInt8 from d.key)]) else none) = some (prot, sg) at h
    change prot.length < 2 ^ 63 ∧ sg.length < 2 ^ 63
    split at h
    · rename_i hl
      cases h
      simp only [List.length_cons, List.length_nil]
      omega
    · cases h

theorem digests : Device.Digests env.toDevEnv where
  plain t d _ := Verif.Toy.digest_length t d
  hmac t s d := Verif.Toy.digest_length t (s ++ d)
  tpm _ _ _ _ _ h := by cases h

theorem wire0 : To0.Wire env.toOwnerEnv To0.Toy.msgs To0.Toy.encode where
  hello := To0.Toy.wire.hello
  ack := To0.Toy.wire.ack
  accept := To0.Toy.wire.accept
  u32 := To0.Toy.wire.u32
  nonce := To0.Toy.wire.nonce
  to1 := To0.Toy.wire.to1

theorem wire1 : To0.Wire1 env.toDevEnv To0.Toy.encode where
  hello := To0.Toy.helloRv_dec
  ack := To0.Toy.helloAck_dec
  redirect _ := rfl
  claims n u hn hu := ⟨To0.Toy.claims_dec n u hn hu, To0.Toy.claims_length n u hn hu⟩

set_option maxHeartbeats 2000000 in
theorem wire2 : Device.Wire env.toDevEnv Device.Toy.encode where
  hello := Device.Toy.hello_dec
  getEntry := Device.Toy.getEntry_dec
  ready := by decide
  deviceSi := Device.Toy.deviceSi_dec
  done := Device.Toy.small_dec
  proveOvHdr _ := rfl
  ovEntry n e _ := Device.Toy.ovEntry_written n e
  setupDevice _ := rfl
  ownerReady := rfl
  ownerSi := Device.Toy.ownerSi_dec
  lastSi := rfl
  done2 := Device.Toy.small_dec
  u16 n h := ⟨Device.Toy.u16_dec n h, Device.Toy.u16_item n⟩
  nonce n h := ⟨Device.Toy.small_dec n h, Device.Toy.small_item n h⟩
  sig := ⟨rfl, Device.Toy.byte_item 2 (by decide)⟩
  hash h hl := ⟨Device.Toy.hash_dec h hl, Device.Toy.hash_item h hl⟩
  cuph n k h := ⟨Device.Toy.cuph_dec n k h, Device.Toy.cuph_item n k h⟩
  euph n h := ⟨congrArg some (Device.Toy.small_dec n h), Device.Toy.small_item n h⟩
  prove b h := ⟨Device.Toy.prove_dec b h, Device.Toy.prove_length b h⟩
  claims n u b hn hu hb := ⟨Device.Toy.claims_dec n u _ hn hu (Device.Toy.prove_length b hb),
    Device.Toy.claims_length n u _ hn hu (Device.Toy.prove_length b hb)⟩
  proof := Device.Toy.proof_length

theorem ownerKeys : Device.OwnerKeys env.toDevEnv cfg where
  proves n _ := Device.Toy.signs _ _
  setsUp := Device.Toy.signs _ _
  size g n hg hn := by
    show (g ++ n ++ [(13 : UInt8)]).length < _
    simp [hg, hn]

theorem laws : Laws mcfg cfg rcfg To0.Toy.msgs aead MfgServer.Toy.encode To0.Toy.encode Device.Toy.encode where
  mfg := mfgLaws
  wireM := wireM
  kex := toyKex_laws
  agree := Device.Toy.agree
  secures := Device.Toy.secures
  digests := digests
  credential cr _ _ := decCred_enc cr
  trust := trust
  wire0 := wire0
  wire1 := wire1
  wire2 := wire2
  keys := ownerKeys
  redirects := Device.Toy.signs _ _
  period := by decide
  rv := by decide

end Toy
end Verif.Life
