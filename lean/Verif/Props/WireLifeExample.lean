import Verif.Props.WireLife
import Verif.Props.WireExample
/-!
Parties of a device's life which speak the forms of data-formats, and credentials as bytes: examples for C83 and C86.
-/
namespace Verif.Wire
open Verif Verif.Types Verif.Voucher Verif.Credential Verif.Fs

/-! ### Credentials -/

/-- A credential with the rendezvous information of `WireExample` and a key in the file. -/
def someCred : Cred :=
  ⟨true, 101, "dev".toList, List.replicate 16 7, rvInfo.write [[(5, [0x6a, 0x72, 0x76]), (3, [0x19, 0x1f, 0x92])]],
    ⟨.sha384, List.replicate 48 3⟩, .plain [1, 200] [2]⟩

/-- It is as C86 asks. -/
theorem someCred_read : credential.read (credential.write someCred) = some someCred :=
  C86_credential _ _ (.inr rfl) rfl rfl (by decide) (by decide +kernel) (by decide +kernel)

/-- This is its form. -/
example :
    credential.write someCred = [0x87, 0xf5, 0x18, 0x65, 0x63, 0x64, 0x65, 0x76, 0x50] ++ List.replicate 16 7 ++
      [0x81, 0x82, 0x82, 5, 0x43, 0x6a, 0x72, 0x76, 0x82, 3, 0x43, 0x19, 0x1f, 0x92] ++ [0x82, 0x38, 0x2a, 0x58, 0x30] ++
      List.replicate 48 3 ++ [0xa1, 0x65] ++ "Plain".toUTF8.data.toList ++ [0xa2, 0x6b] ++ "hmac_secret".toUTF8.data.toList ++
      [0x82, 0x01, 0x18, 0xc8, 0x6b] ++ "private_key".toUTF8.data.toList ++ [0x81, 0x02] :=
  by decide +kernel

/-- A credential with a version there is not, and one with a GUID of 15 bytes, are not read. -/
example : credential.read (credential.write { someCred with version := 102 }) = none ∧
    credential.read (credential.write { someCred with guid := List.replicate 15 7 }) = none := by
  constructor <;> decide +kernel

/-- The fields of the key storage may come in the other order; the outcome is then written in the usual one. -/
def turned : Bytes := enc (.arr [.bool true, .uint 101, .text "dev", .bytes (List.replicate 16 7), .arr [], hash.ser ⟨.sha384, []⟩,
  .map [(.text "Plain", .map [(.text "private_key", .arr [.uint 2]), (.text "more", .null), (.text "hmac_secret", .arr [.uint 1])])]])

example : (credential.read turned).map (·.keys) = some (.plain [1] [2]) := by decide +kernel

theorem deactivate_runs {C : Credential.Codec} {b : Bytes} {c : Cred} (h : C.dec b = some c) :
    ∃ t s', Prog.Ends (deactivate C ⟨etcPath, .deactivate⟩) t (.ok ()) ∧ Run (fun q => if q = etcPath then some b else none) t s' ∧
      s' etcPath = some (C.enc { c with active := false }) := by
  refine ⟨[⟨.read etcPath, (some b : Option Bytes)⟩, ⟨.create etcPath, true⟩, ⟨.append etcPath (C.enc { c with active := false }), true⟩],
    _, .cons ?_, .cons (.read (by simp)) (.cons .create (.cons (.append (c := []) (by simp [Files.set])) .nil)), by simp [Files.set]⟩
  have h1 : (Proc.some? (S := sig) CredErr.parse (C.dec b)) = pure c := by rw [h]; rfl
  show Prog.Ends (show Proc sig CredErr Unit from (Proc.some? (S := sig) CredErr.parse (C.dec b)) >>=
    fun c => writeFile .io etcPath (C.enc { c with active := false })) _ _
  rw [h1]
  exact .cons (.cons (.nil _))

/-- Any credential that can be read can be deactivated. -/
theorem deactivate_runs_wire {b : Bytes} {c : Cred} (h : credential.read b = some c) :
    ∃ t s', Prog.Ends (deactivate credentialCodec ⟨etcPath, .deactivate⟩) t (.ok ()) ∧
      Run (fun q => if q = etcPath then some b else none) t s' ∧ s' etcPath = some (credential.write { c with active := false }) :=
  deactivate_runs (C := credentialCodec) h

/-- A run of the deactivation that succeeds. -/
example : ∃ t s', Prog.Ends (deactivate credentialCodec ⟨etcPath, .deactivate⟩) t (.ok ()) ∧
    Run (fun q => if q = etcPath then some (credential.write someCred) else none) t s' ∧
    s' etcPath = some (credential.write { someCred with active := false }) :=
  deactivate_runs_wire someCred_read

/-! ### The owner tool -/

def toolForms : Forms OwnerTool.Toy.tool.E := ⟨toyForms.pub, toyForms.pubOf, toyForms.rv, toyForms.rvOf, toyForms.chain,
  toyForms.chainOf, toyForms.extra, toyForms.extraOf⟩

theorem toolForms_laws : toolForms.Laws :=
  ⟨toyForms_laws.1, toyForms_laws.2, toyForms_laws.3, toyForms_laws.4, toyForms_laws.5, toyForms_laws.6, toyForms_laws.7, toyForms_laws.8⟩

/-- The owner tool of `OwnerTool`, with the forms of data-formats. -/
@[reducible] def tool : OwnerTool.Tool :=
  { OwnerTool.Toy.tool with
    E := spoken OwnerTool.Toy.tool.E toolForms
    privateKey := OwnerTool.Toy.tool.privateKey
    certKey := OwnerTool.Toy.tool.certKey
    codec := credentialCodec }

def input : OwnerTool.InitInput tool where
  id := "FDO device 1"
  mfgKey := (7 : UInt8)
  rv := ()
  chain := (9 : UInt8)
  chainHash := ⟨.sha384, List.replicate 48 1⟩
  secret := [1, 2, 3]
  privateKey := [4]
  guid := List.replicate 16 0xaa

/-- Initialising a device, on a file system where every operation succeeds. -/
theorem init_runs {T : OwnerTool.Tool} {i : OwnerTool.InitInput T} {v : Voucher T.E} {cr : Cred} {pem : Bytes} {a b : Path} (hab : a ≠ b)
    (h1 : OwnerTool.initPair T i = .ok (v, cr)) (h2 : OwnerTool.toPem T v = .ok pem) :
    ∃ t s', Prog.Ends (OwnerTool.initDevice T i a b) t (.ok ()) ∧ Run (fun _ => none) t s' ∧ s' a = some pem ∧ s' b = some (T.codec.enc cr) := by
  refine ⟨[⟨.exists? b, false⟩, ⟨.exists? a, false⟩, ⟨.create a, true⟩, ⟨.append a pem, true⟩, ⟨.create b, true⟩,
    ⟨.append b (T.codec.enc cr), true⟩], _, .cons (.cons ?_),
    .cons .exists? (.cons .exists? (.cons .create (.cons (.append (c := []) (by simp [Files.set])) (.cons .create
      (.cons (.append (c := []) (by simp [Files.set])) .nil))))), by simp [Files.set, hab], by simp [Files.set]⟩
  have e1 : (Proc.lift (S := sig) (OwnerTool.liftE (OwnerTool.initPair T i))) = pure (v, cr) := by rw [h1]; rfl
  have e2 : (Proc.lift (S := sig) (OwnerTool.liftE (OwnerTool.toPem T v))) = pure pem := by rw [h2]; rfl
  show Prog.Ends (show Proc sig OwnerTool.ToolErr Unit from (Proc.lift (S := sig) (OwnerTool.liftE (OwnerTool.initPair T i))) >>= fun x => do
    let pem ← Proc.lift (OwnerTool.liftE (OwnerTool.toPem T x.1))
    writeFile .io a pem
    writeFile .io b (T.codec.enc x.2)) _ _
  rw [e1]
  show Prog.Ends (show Proc sig OwnerTool.ToolErr Unit from (Proc.lift (S := sig) (OwnerTool.liftE (OwnerTool.toPem T v))) >>= fun pem => do
    writeFile .io a pem
    writeFile .io b (T.codec.enc cr)) _ _
  rw [e2]
  exact .cons (.cons (.cons (.cons (.nil _))))

def madeOk : Bool :=
  match OwnerTool.initPair tool input with
  | .ok (v, cr) => match OwnerTool.toPem tool v with
    | .ok _ => decide ((credential.write cr).length < 2 ^ 64)
    | _ => false
  | _ => false

theorem made : ∃ v cr pem, OwnerTool.initPair tool input = .ok (v, cr) ∧ OwnerTool.toPem tool v = .ok pem ∧
    (credential.write cr).length < 2 ^ 64 := by
  have h : madeOk = true := by decide +kernel
  unfold madeOk at h
  split at h
  · split at h
    · exact ⟨_, _, _, by assumption, by assumption, of_decide_eq_true h⟩
    · cases h
  · cases h

def headerBytes : Res Cbor.ParseErr Bytes :=
  Cbor.serialize (Header.new tool.E 101 input.guid input.rv (tool.trim input.id) input.mfgKey (some input.chainHash)).contents

theorem header_small (bs : Bytes) (h : headerBytes = .ok bs) : bs.length < 2 ^ 63 := by
  have h1 : (match headerBytes with
    | .ok bs => decide (bs.length < 2 ^ 63)
    | _ => false) = true := by decide +kernel
  rw [h] at h1
  exact of_decide_eq_true h1

/-- The tool initialises a device, and with the forms of data-formats all hypotheses of C67 are met: the voucher and the credential are
read from the two files, and belong together. -/
example : ∃ t s', Prog.Ends (OwnerTool.initDevice tool input OwnerTool.Toy.ov OwnerTool.Toy.cred) t (.ok ()) ∧ Run (fun _ => none) t s' ∧
    ∃ pem cb v cr, s' OwnerTool.Toy.ov = some pem ∧ s' OwnerTool.Toy.cred = some cb ∧ OwnerTool.fromPemOrRaw tool true pem = .ok v ∧
      credential.read cb = some cr ∧ cr.active = true ∧ cr.guid = v.header.guid := by
  obtain ⟨v, cr, pem, h1, h2, h3⟩ := made
  have hne : OwnerTool.Toy.ov ≠ OwnerTool.Toy.cred := by decide
  obtain ⟨t, s', h4, h5, h6, h7⟩ := init_runs hne h1 h2
  have V := C83_voucher_partial (spoken_speaks (F := toolForms)) toolForms_laws.on
  obtain ⟨pem', cb, v', cr', hb, g1, g2, g3, g4, g5, g6, _⟩ := OwnerTool.C67_matching (T := tool) (c := true) V.2 V.1
    ⟨fun _ => ⟨_, rfl⟩, fun _ => rfl⟩ input _ _ hne rfl
    ⟨by decide +kernel, by decide +kernel, by decide +kernel, by decide +kernel⟩ header_small
    (fun x hx => by
      have := hash_le ⟨.hmacSha384, x⟩
      simp only [hx] at this
      show (enc (hash.ser ⟨.hmacSha384, x⟩)).length < 2 ^ 63
      omega) (by decide +kernel) t (fun _ => none) s' h4 h5
    (fun cr' k1 k2 k3 k4 => C86_tool (T := tool) (spoken_speaks (F := toolForms)) toolForms_laws.on rfl () (by decide +kernel) cr' k1 k2 k3 (by
      rw [h7] at k4
      rw [← Option.some.inj k4]
      exact h3))
  exact ⟨t, s', h4, h5, pem', cb, v', cr', g1, g2, g3, g4, g5, g6⟩

/-! ### All parties -/

/-- Parties which speak the forms of data-formats in place of their own. -/
@[reducible] def spokenWhole (R : Life.Whole) (F : Forms R.E) : Life.Whole :=
  { R with
    toDevEnv := { spokenDev R.toDevEnv F with codec := credentialCodec }
    mkChain := R.mkChain
    build := R.build
    signNonce := R.signNonce
    pubChain := R.pubChain
    encConnect := connect.write
    decConnect := connect.read
    encAccept := acceptPayload.write
    decAccept := acceptPayload.read
    encProvideKey := fun d s => provideKey.write (d, s)
    decProvideKey := provideKey.read
    encAppStart := fun i => appStart.write (value.write (.text i.toList))
    decAppStart := appStart.read
    decMfgInfo := fun b => (value.read b).map fun
      | .text s => some (String.ofList s)
      | _ => none
    encSetHmac := setHmac.write
    decSetHmac := setHmac.read
    encKeyUnprot := fun k => header.write [(cuphOwner, publicKey.ser (F.pub k))] }

set_option maxHeartbeats 2000000 in
theorem spoken_whole {R : Life.Whole} {F : Forms R.E} : Speaks (spokenWhole R F) F.on to0Msgs mfgEncode rvEncode ownerEncode where
  voucher := spoken_speaks
  mfg := by constructor <;> first | rfl | exact fun _ => rfl
  to0 := by
    have h := spoken_to0 (R := R.toDevEnv) (F := F)
    exact ⟨h.1, h.2, h.3, h.4, h.5, h.6, h.7, h.8, h.9, h.10, h.11, h.12⟩
  to1 := by
    have h := spoken_to1 (R := R.toDevEnv) (F := F)
    exact ⟨h.1, h.2, h.3, h.4, h.5, h.6, h.7⟩
  to2 := by
    have h := spoken_to2 (R := R.toDevEnv) (F := F)
    exact ⟨h.1, h.2, h.3, h.4, h.5, h.6, h.7, h.8, h.9, h.10, h.11, h.12, h.13, h.14, h.15, h.16, h.17, h.18, h.19, h.20, h.21, h.22, h.23,
      h.24, h.25, h.26, h.27, h.28, h.29, h.30, h.31, h.32, h.33⟩
  credential := rfl

def lifeForms : Forms Life.Toy.env.E := ⟨toyForms.pub, toyForms.pubOf, toyForms.rv, toyForms.rvOf, toyForms.chain, toyForms.chainOf,
  toyForms.extra, toyForms.extraOf⟩

theorem lifeForms_laws : lifeForms.Laws :=
  ⟨toyForms_laws.1, toyForms_laws.2, toyForms_laws.3, toyForms_laws.4, toyForms_laws.5, toyForms_laws.6, toyForms_laws.7, toyForms_laws.8⟩

/-- The device, manufacturer, rendezvous server and owner of `LifeToy`, speaking the forms of data-formats. -/
@[reducible] def whole : Life.Whole := spokenWhole Life.Toy.env lifeForms

def mcfg : MfgServer.Config whole.mfg :=
  ⟨((7 : Nat), (7 : Nat)), some (7 : UInt8), (100 : UInt8), (100 : UInt8), some (11 : UInt8), (), false,
    some ⟨.serialNumber, .ecdsa384, [.fileSystem], (20 : UInt8), (20 : UInt8)⟩, false⟩

def cfg : OwnerServer.Config whole.toOwnerEnv :=
  ⟨(12 : UInt8), (12 : UInt8), (13 : UInt8), (13 : UInt8), some [((100 : Nat), (100 : Nat))], 600, 61⟩

def rcfg : RvServer.Config whole.toRvEnv := ⟨100, some [((7 : Nat), (7 : Nat))], some [((100 : Nat), (100 : Nat))]⟩

theorem works : Works mcfg cfg rcfg RvServer.Toy.aead where
  chain := Life.Toy.mfgLaws.chain_certs
  built := Life.Toy.mfgLaws.built
  signing k h := Life.Toy.mfgLaws.signing k h
  trust := ⟨Life.Toy.trust.1, Life.Toy.trust.2, Life.Toy.trust.3, Life.Toy.trust.4, Life.Toy.trust.5⟩
  nonces d n p prot sg _ h := by
    change (if n.length < 100 ∧ (acceptPayload.write p).length < 5000 then some (n, [(show UInt8 from d.key)]) else none) =
      some (prot, sg) at h
    split at h
    · cases h
      simp only [List.length_cons, List.length_nil]
      omega
    · cases h
  kex := toyKex_laws
  agree := Device.Toy.agree
  secures := Device.Toy.secures
  digests := ⟨Life.Toy.digests.1, Life.Toy.digests.2, Life.Toy.digests.3⟩
  short t d := by
    have : (Verif.Toy.digest t d).length = t.digestSize := Verif.Toy.digest_length t d
    change (Verif.Toy.digest t d).length ≤ 64
    rw [this]
    cases t <;> decide
  keys := ⟨fun n _ => Device.Toy.signs (12 : UInt8) (whole.encUnprot n (12 : UInt8)), Device.Toy.signs (13 : UInt8) emptyMap, Life.Toy.ownerKeys.3⟩
  redirects := Device.Toy.signs (12 : UInt8) emptyMap
  period := by decide
  rv := by decide +kernel

/-- All that C78 and C79 assume of them holds. -/
example : Life.Laws mcfg cfg rcfg to0Msgs RvServer.Toy.aead mfgEncode rvEncode ownerEncode :=
  C83_life spoken_whole lifeForms_laws.on works

end Verif.Wire
