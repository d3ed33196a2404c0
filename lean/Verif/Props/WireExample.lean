import Verif.Props.Wire
import Verif.Props.LifeToy
/-!
Environments whose codecs are those of data-formats, and messages as bytes: examples for C83.
-/
namespace Verif.Wire
open Verif Verif.Types

/-- An environment with the codecs of data-formats in place of its own. -/
@[reducible] def spoken (E : Env) (F : Forms E) : Env :=
  { E with
    encBytes := Codec.bytes.write
    decBytes := Codec.bytes.read
    encVersion := version.write
    decVersion := version.read
    encGuid := Codec.bytes16.write
    decGuid := Codec.bytes16.read
    encText := Codec.text.write
    decText := Codec.text.read
    encPub := fun p => publicKey.write (F.pub p)
    decPub := fun b => (publicKey.read b).bind F.pubOf
    encHash := hash.write
    decHash := hash.read
    encHashOpt := (Codec.opt hash).write
    decHashOpt := (Codec.opt hash).read
    encRv := fun r => rvInfo.write (F.rv r)
    decRv := fun b => (rvInfo.read b).map F.rvOf
    encChainOpt := fun c => (Codec.opt chain).write (c.map F.chain)
    decChainOpt := fun b =>
      match (Codec.opt chain).read b with
      | none => none
      | some none => some none
      | some (some l) => (F.chainOf l).map some
    encPayload := fun p => payload.write (F.payload p)
    decPayload := fun b => (payload.read b).bind F.payloadOf }

/-- The same forms. -/
@[reducible] def Forms.on {E : Env} (F : Forms E) : Forms (spoken E F) :=
  ⟨F.pub, F.pubOf, F.rv, F.rvOf, F.chain, F.chainOf, F.extra, F.extraOf⟩

theorem Forms.Laws.on {E : Env} {F : Forms E} (L : F.Laws) : F.on.Laws :=
  ⟨L.pub, L.type, L.size, L.rv, L.vars, L.chain, L.extra, L.small⟩

theorem spoken_speaks {E : Env} {F : Forms E} : SpeaksVoucher (spoken E F) F.on := by
  constructor <;> rfl

/-- Any environment with forms that obey the laws has one in which vouchers are read as they were written. -/
example {E : Env} {F : Forms E} (L : F.Laws) : Voucher.CodecLaws (spoken E F) ∧ Voucher.LeafLaws (spoken E F) :=
  C83_voucher_partial spoken_speaks L.on

/-- The same for owner server, rendezvous server and device. -/
@[reducible] def spokenDev (R : Device.DevEnv) (F : Forms R.E) : Device.DevEnv :=
  { R with
    E := spoken R.E F
    certs := R.certs
    certPub := R.certPub
    sameKey := R.sameKey
    leafKey := R.leafKey
    directives := R.directives
    encSetup := R.encSetup
    cuphOwner := fun b => match headerValue publicKey cuphOwner b with
      | none => none
      | some none => some none
      | some (some x) => (F.pubOf x).map some
    helloOk := fun b => (Codec.unit.read b).isSome
    encU32 := (Codec.uint (2 ^ 32)).write
    decU32 := (Codec.uint (2 ^ 32)).read
    encNonce := Codec.bytes16.write
    decNonce := Codec.bytes16.read
    encTo1 := fun h => to1Data.write ([(some [192, 168, 0, 1], some "owner.example", 8081, 3)], h)
    decTo1 := fun b => (to1Data.read b).map (·.2)
    encHelloRv := fun g => helloRv.write (g, -35, [])
    decHelloRv := fun b => (helloRv.read b).map fun x => (x.1, x.2.1 == -7 || x.2.1 == -35, x.2.2)
    decHelloAck := fun b => (helloRvAck.read b).map fun x => (x.1, sigOf x.2.1, x.2.2)
    encClaims := fun n u f => header.write ((eatUeid, .bytes u) :: (f.bind fromSlice).toList.map (fun i => (eatFdo, i)) ++ [(eatNonce, .bytes n)])
    decClaims := readClaims
    encHello := fun h => helloDevice.write (OwnerServer.maxMessageSize, h)
    decHello := fun b => (helloDevice.read b).map (·.2)
    encGetEntry := getEntry.write
    decGetEntry := getEntry.read
    encReady := deviceReady.write (none, none)
    decReady := fun b => (deviceReady.read b).isSome
    encDeviceSi := fun si => deviceSi.write (false, si)
    decDeviceSi := fun b => (deviceSi.read b).map (·.2)
    encDone := nonceMsg.write
    decDone := nonceMsg.read
    decOwnerReady := fun b => (ownerReady.read b).map fun _ => ()
    decOwnerSi := ownerSi.read
    decDone2 := nonceMsg.read
    encU16 := (Codec.uint 65536).write
    decU16 := (Codec.uint 65536).read
    encSig := fun t => sigInfo.write (sigNum t, [])
    decSigInfo := fun b => (sigInfo.read b).map fun x => (sigOf x.1, x.2)
    encUnprot := fun n k => header.write [(cuphOwner, publicKey.ser (F.pub k)), (cuphNonce, .bytes n)]
    cuphNonce := headerValue Codec.bytes16 cuphNonce
    encEuph := fun n => header.write [(euphNonce, .bytes n)]
    euphNonce := headerValue Codec.bytes16 euphNonce
    encProve := proveDevice.write
    decProve := proveDevice.read
    encVal := value.write
    decVal := value.read }

/-- Messages of TO0, and of the servers. -/
def to0Msgs : To0.Msgs := ⟨Codec.unit.write (), nonceMsg.read, acceptOwner.read⟩

def rvEncode : RvServer.Resp → Bytes
  | .helloAck n => nonceMsg.write n
  | .acceptOwner w => acceptOwner.write w
  | .helloRvAck n => helloRvAck.write (n, -35, [])
  | .redirect t => t

def ownerEncode : OwnerServer.Resp → Bytes
  | .proveOvHdr t => t
  | .ovEntry n e => 0x82 :: ((Codec.uint 65536).write n ++ e)
  | .setupDevice t => t
  | .ownerReady => ownerReady.write none
  | .ownerSi m => ownerSi.write m
  | .done2 n => nonceMsg.write n

section
variable {R : Device.DevEnv} {F : Forms R.E}

theorem spoken_to0 : SpeaksTo0 (spokenDev R F).toOwnerEnv to0Msgs rvEncode where
  helloOk := rfl
  hello := rfl
  ack _ := rfl
  decAck := rfl
  accept _ := rfl
  decAccept := rfl
  encU32 := rfl
  decU32 := rfl
  encNonce := rfl
  decNonce := rfl
  encTo1 := ⟨_, ⟨by decide +kernel, by simp⟩, rfl⟩
  decTo1 := rfl

theorem spoken_to1 : SpeaksTo1 (spokenDev R F) rvEncode where
  encHelloRv _ := rfl
  decHelloRv := rfl
  ack _ := rfl
  decHelloAck := rfl
  redirect _ := rfl
  encClaims n u := ⟨[(eatUeid, .bytes u), (eatNonce, .bytes n)], .swap .., rfl⟩
  decClaims := rfl

theorem spoken_to2 : SpeaksTo2 (spokenDev R F) F.on ownerEncode where
  encHello := rfl
  decHello := rfl
  encGetEntry := rfl
  decGetEntry := rfl
  encReady := rfl
  decReady := rfl
  encDeviceSi := ⟨false, rfl⟩
  decDeviceSi := rfl
  encDone := rfl
  decDone := rfl
  proveOvHdr _ := rfl
  ovEntry n e := by
    have h : Cbor.encodeItemStart 4 2 = .ok [0x82] := by decide +kernel
    simp only [Cbor.serialize, List.length_cons, List.length_nil, h]
    simp [ownerEncode]
  setupDevice _ := rfl
  ownerReady := rfl
  decOwnerReady := rfl
  ownerSi _ := rfl
  decOwnerSi := rfl
  done2 _ := rfl
  decDone2 := rfl
  encU16 := rfl
  decU16 := rfl
  encNonce := rfl
  decNonce := rfl
  encSig := rfl
  decSigInfo := rfl
  encUnprot n k := ⟨_, .swap .., rfl⟩
  cuphNonce := rfl
  encEuph _ := rfl
  euphNonce := rfl
  encProve := rfl
  decProve := rfl
  encClaims n u b h := by
    refine ⟨[(eatUeid, .bytes u), (eatFdo, proveDevice.ser b), (eatNonce, .bytes n)], ?_, ?_⟩
    · exact ((List.Perm.swap ..).cons _).trans (.swap ..) |>.trans ((List.Perm.refl _))
    · have := fromSlice_fits ((proveDevice_rw h).2.2.mono (e := 127) (by decide)).fits
        (show (enc (proveDevice.ser b)).length < 2 ^ 64 by have := (proveDevice_rw h).2.1; simp only [Codec.write] at this; omega)
      show header.write (_ :: ((some (proveDevice.write b)).bind fromSlice).toList.map _ ++ _) = _
      rw [Option.bind_some, show proveDevice.write b = enc (proveDevice.ser b) from rfl, this]
      rfl
  decClaims := rfl

end

/-! ### A concrete environment: that of `LifeToy`, where keys and chains are numbers -/

def toyForms : Forms Device.Toy.env.E where
  pub (p : UInt8) := (10, 1, [p])
  pubOf x := x.2.2.head?
  rv _ := [[(5, [0x6a, 0x72, 0x76]), (3, [0x19, 0x1f, 0x92])]]
  rvOf _ := ()
  chain (c : UInt8) := [[c], [100]]
  chainOf l := match l with
    | [c] :: _ => some c
    | _ => none
  extra (b : Bytes) := [(7, b)]
  extraOf l := match l with
    | [(_, b)] => b
    | _ => ([] : Bytes)

theorem toyForms_laws : toyForms.Laws where
  pub _ := rfl
  type _ := by simp [toyForms]
  size _ := by simp [toyForms]
  rv _ := rfl
  vars _ := by simp [toyForms]; omega
  chain _ := rfl
  extra _ := rfl
  small _ := by simp [toyForms]

@[reducible] def toy : Device.DevEnv := spokenDev Device.Toy.env toyForms

/-- In it all messages of TO0, TO1 and TO2 are read as they were written. -/
example : Voucher.CodecLaws toy.E ∧ Voucher.LeafLaws toy.E ∧ To0.Wire toy.toOwnerEnv to0Msgs rvEncode ∧ To0.Wire1 toy rvEncode ∧
    Device.Wire toy ownerEncode :=
  have h := C83_voucher_partial (spoken_speaks (F := toyForms)) toyForms_laws.on
  ⟨h.1, h.2, C83_to0 spoken_to0, C83_to1 spoken_to1, C83_to2 spoken_speaks toyForms_laws.on spoken_to2⟩

/-- A hash, a public key and rendezvous info as bytes. -/
example : hash.write ⟨.sha256, [1, 2, 3]⟩ = [0x82, 0x2f, 0x43, 1, 2, 3] ∧
    toy.E.encPub (9 : UInt8) = [0x83, 0x0a, 0x01, 0x41, 9] ∧
    toy.E.encRv () = [0x81, 0x82, 0x82, 5, 0x43, 0x6a, 0x72, 0x76, 0x82, 3, 0x43, 0x19, 0x1f, 0x92] ∧
    toy.E.decRv [0x81, 0x82, 0x82, 5, 0x43, 0x6a, 0x72, 0x76, 0x82, 15, 0x43, 0x19, 0x1f, 0x92] = none := by
  refine ⟨?_, ?_, ?_, ?_⟩ <;> decide +kernel

/-! ### Error messages -/

/-- The error message of data-formats' own test (messages/v11/error.rs:87-121) has these bytes, and is read again. -/
example :
    let b := errorMsg.write (serverError 2 .to0OwnerSign "Ownership voucher manufacturer not trusted" 16378777930150272023)
    b.take 5 = [0x85, 0x02, 0x16, 0x78, 0x2a] ∧ b.drop 47 = [0xf6, 0x1b, 0xe3, 0x4d, 0x1b, 0xbf, 0xbd, 0x9d, 0x5c, 0x17] ∧
    (errorMsg.read b).isSome = true := by
  decide +kernel

/-- That of a device, with the UUID 936da01f-9abd-4d9d-80c7-02af85c822a8, is not. -/
example : RandomUuid 0x936da01f9abd4d9d80c702af85c822a8 ∧
    errorMsg.read (errorMsg.write (clientError 100 .to2ProveOVHdr "Invalid message" 0x936da01f9abd4d9d80c702af85c822a8)) = none :=
  ⟨by unfold RandomUuid; decide, C83_error_violated _ _ _ _ (by unfold RandomUuid; decide)⟩

/-- An entry with extra data under a key of 65 bits. -/
example : payload.read (payload.write ⟨⟨.sha384, []⟩, ⟨.sha384, []⟩, some [(2 ^ 64, [1])], (10, 1, [4])⟩) = none :=
  C83_extra_violated _ rfl (List.mem_singleton.2 rfl) (Nat.le_refl _)

/-- A service info value: the parameters of a command. -/
example : Plain 127 (.array [.text "-l".toList, .int (-3), .map [(.bool true, .bytes [1])]]) := by
  simp [Plain]

/-! ### Manufacturing -/

/-- The same for the manufacturing client and server. -/
@[reducible] def spokenMfg (R : MfgClient.ClientEnv) (F : Forms R.E) : MfgClient.ClientEnv :=
  { R with
    E := spoken R.E F
    certs := R.certs
    certPub := R.certPub
    sameKey := R.sameKey
    leafKey := R.leafKey
    directives := R.directives
    encSetup := R.encSetup
    encUnprot := R.encUnprot
    cuphOwner := R.cuphOwner
    mkChain := R.mkChain
    build := R.build
    signNonce := R.signNonce
    pubChain := R.pubChain
    encConnect := connect.write
    decConnect := connect.read
    encAccept := acceptPayload.write
    decAccept := acceptPayload.read
    encProvideKey := fun d s => provideKey.write (d, s)
    decProvideKey := provideKey.read
    encAppStart := fun i => appStart.write (value.write (.text i.toList))
    decAppStart := appStart.read
    decMfgInfo := fun b => (value.read b).map fun
      | .text s => some (String.ofList s)
      | _ => none
    encSetHmac := setHmac.write
    decSetHmac := setHmac.read
    encKeyUnprot := fun k => header.write [(cuphOwner, publicKey.ser (F.pub k))] }

def mfgEncode : MfgServer.Resp → Bytes
  | .setCredentials b => b
  | .done => Codec.unit.write ()
  | .accept b => b
  | .keyParameters t a => keyParameters.write (t, a)
  | .diunDone t => diunDone.write t

theorem spoken_mfg {R : MfgClient.ClientEnv} {F : Forms R.E} : SpeaksMfg (spokenMfg R F) F.on mfgEncode := by
  constructor <;> first | rfl | exact fun _ => rfl

def toyForms2 : Forms MfgClient.Toy.env.E := ⟨toyForms.pub, toyForms.pubOf, toyForms.rv, toyForms.rvOf, toyForms.chain,
  toyForms.chainOf, toyForms.extra, toyForms.extraOf⟩

@[reducible] def toyMfg : MfgClient.ClientEnv := spokenMfg MfgClient.Toy.env toyForms2

def toyMfgCfg : MfgServer.Config toyMfg.toMfgEnv :=
  ⟨((7 : Nat), (7 : Nat)), some (7 : UInt8), (100 : UInt8), (100 : UInt8), none, (), true,
    some ⟨.serialNumber, .ecdsa384, [.fileSystem], (8 : UInt8), (8 : UInt8)⟩, true⟩

/-- In it the messages for manufacturing are not read as something else. -/
example : MfgClient.Wire toyMfg toyMfgCfg mfgEncode :=
  C83_mfg (F := toyForms2.on) ⟨fun _ => rfl, fun _ => by simp [toyForms2, toyForms], fun _ => by simp [toyForms2, toyForms], fun _ => rfl,
      fun _ => by simp [toyForms2, toyForms]; omega, fun _ => rfl, fun _ => rfl, fun _ => by simp [toyForms2, toyForms]⟩ spoken_mfg
    fun d n p prot sg _ h => by
      change (if n.length < 100 ∧ (acceptPayload.write p).length < 5000 then some (n, [(show UInt8 from d.key)]) else none) =
        some (prot, sg) at h
      split at h
      · cases h
        simp only [List.length_cons, List.length_nil]
        omega
      · cases h

/-- The first message of DIUN; its key exchange value is an array of numbers. -/
example : connect.write ⟨List.replicate 16 1, .ecdh256, .a128gcm, [200, 3]⟩ =
      [0x84, 0x50] ++ List.replicate 16 1 ++ [0x67, 0x45, 0x43, 0x44, 0x48, 0x32, 0x35, 0x36, 0x01, 0x82, 0x18, 0xc8, 0x03] ∧
    (connect.read (connect.write ⟨List.replicate 16 1, .ecdh256, .a128gcm, [200, 3]⟩)).map (·.keyExchange) = some [200, 3] := by
  constructor <;> decide +kernel

end Verif.Wire
