import Verif.Props.OwnerRenewal
import Verif.Props.OwnerRounds
import Verif.Props.OwnerEntries
import Verif.Props.RvExample
import Verif.Props.Types
/-!
A concrete owner server, used for examples and as witness of violations: the device with GUID aa…aa and key 9,
whose voucher names the owners 11 and 12, is onboarded by the server with key 12.
-/
namespace Verif.OwnerServer
open Verif Verif.Voucher Verif.Store Verif.Types Verif.ServiceInfo

namespace Toy
open Verif.RvServer.Toy (aead guid)

/-- The device's key exchange value. -/
def devKex : KeyExchange toyKex := .ecdh .ecdh256 (3 : UInt8) (List.replicate 16 1)

/-- What the toy device writes as HelloDevice is `1`, its module announcement is the value `[1, 1]`. -/
@[reducible] def env : OwnerEnv where
  toRvEnv := { RvServer.Toy.rvEnv with
    decClaims := fun b => (Verif.Toy.whole Verif.Toy.takeBytes b).map fun n => (some n, some (1 :: guid), some [5]) }
  leafKey (q : Nat × Nat) := some (UInt8.ofNat q.1)
  K := toyKex
  encU16 n := [0x19, UInt8.ofNat (n / 256), UInt8.ofNat n]
  decU16 b := match b with
    | [0x19, x, y] => some (x.toNat * 256 + y.toNat)
    | _ => none
  encNonce := Verif.Toy.encBytes
  encSig _ := [0x01]
  decSig _ := some .es256
  encU32 n := [0x18, UInt8.ofNat n]
  encTo1 := Verif.Toy.encHash
  encUnprot n k := Verif.Toy.encBytes ((show UInt8 from k) :: n)
  cuphNonce b := some ((Verif.Toy.whole Verif.Toy.takeBytes b).map (·.drop 1))
  cuphOwner b := some ((Verif.Toy.whole Verif.Toy.takeBytes b).bind (·.head?))
  euphNonce _ := some (some (List.replicate 16 7))
  decProve b := if b = [5] then some devKex.getPublic else none
  encSetup g n k := g ++ n ++ [(k : UInt8)]
  decHello b := if b = [1] then some ⟨guid, List.replicate 16 5, .ecdh256, .a128gcm, .es256, []⟩ else none
  decGetEntry b := match b with
    | [x] => some x.toNat
    | _ => none
  decReady b := decide (b = [0x82])
  decDeviceSi b := some (if b = [1] then [("devmod:modules".toList, [1, 1])] else [])
  decDone b := some b
  encVal v := match v with
    | .bool true => [1]
    | .text s => s.map fun c => UInt8.ofNat c.toNat
    | _ => [0]
  decVal b := if b = [1, 1] then some (.array [.int 1, .int 1, .text "sshkey".toList]) else none
  D := ⟨Unit, fun _ => none, fun _ => none, fun _ => none, fun _ => none, fun _ => none, fun _ => none, fun _ => none⟩
  directives _ := []
  showIp _ := ""

def cfg : Config env := ⟨(12 : UInt8), (12 : UInt8), (13 : UInt8), (13 : UInt8), none, 600, 61⟩

def encode : Resp → Bytes
  | .proveOvHdr t => 1 :: t
  | .ovEntry n e => 2 :: UInt8.ofNat n :: e
  | .setupDevice t => 3 :: t
  | .ownerReady => [4]
  | .ownerSi m => 5 :: (if m.isMore then 1 else 0) :: (if m.isDone then 1 else 0) ::
      (m.si.flatMap fun x => x.1.map fun c => UInt8.ofNat c.toNat) ++ (m.si.flatMap (·.2))
  | .done2 n => 6 :: n

/-- The voucher, and how it is stored. -/
def raw : Bytes := (RvServer.Toy.voucher).getD []
def ser (v : Voucher Verif.Toy.env) : Bytes :=
  match serialize v with
  | .ok b => b
  | _ => []
def de (b : Bytes) : Option (Voucher Verif.Toy.env) :=
  match deserialize (E := Verif.Toy.env) true b with
  | .ok (v, _) => some v
  | _ => none

/-- The service info API: it knows a user for the device. -/
def api (q : List Char) : Option ApiReply :=
  if q = apiQuery (guidText guid) ["sshkey".toList] then some ⟨some ⟨['u'], none, none⟩, none, some true⟩ else none

section
variable (B : VStore (Voucher Verif.Toy.env))

abbrev srv : Http.Server := server env true (B : VStore (Voucher env.E)) cfg (List Char) some aead encode
abbrev Hs : Type := Hist env true (B : VStore (Voucher env.E)) cfg (some : List Char → Option (List Char)) aead encode

/-- A request; the server's nonce is `6…6`. -/
def rq (t : MsgType) (auth : Option (List Char)) (body : Bytes) (s : List Char) : Http.Request (srv B) :=
  ⟨t, true, auth, body, s, [], ⟨100 * second, some (List.replicate 16 6), some ((5 : UInt8), List.replicate 16 2),
    some (List.replicate 16 0xbb), false, api⟩, true⟩

/-- The token of device `k` over nonce `x…x`. -/
def token (k x : UInt8) : Bytes :=
  match signRaw Verif.Toy.env k (Verif.Toy.encBytes (List.replicate 16 x)) with
  | .ok b => b
  | _ => []

/-- The session key. -/
def key : Bytes :=
  match (newKex (K := toyKex) .ecdh256 (5 : UInt8) (List.replicate 16 2)).deriveKey .owner .a128gcm false devKex.getPublic with
  | .ok k => k
  | _ => []

def imported : Hs B :=
  match de raw with
  | some v => [.internal (.import v)]
  | none => []

def asks (t : MsgType) (b : Bytes) : Http.Event (srv B) (Move env) := .request (rq B t (some ['s']) b ['s'])

/-- Onboarding up to Done, with device key `k`. -/
def proving (k : UInt8) : Hs B :=
  imported B ++ [.request (rq B .to2HelloDevice none [1] ['s']), asks B .to2GetOVNextEntry [0], asks B .to2GetOVNextEntry [1],
    asks B .to2ProveDevice (token k 6), asks B .to2DeviceServiceInfoReady (key ++ [0x82])]

def reply (h : Hs B) (t : MsgType) (b : Bytes) : Http.Reply :=
  (Http.step (reached env true B cfg some aead encode h) (rq B t (some ['s']) b ['s'])).2

end

abbrev dirB : VStore (Voucher Verif.Toy.env) := dirStore ser de
abbrev dbB : VStore (Voucher Verif.Toy.env) := dbVStore ser de

def isOk (t : MsgType) : Http.Reply → Bool
  | .ok t' _ _ => decide (t = t')
  | _ => false

def bodyOf : Http.Reply → Bytes
  | .ok _ b _ => b
  | _ => []

/-- The whole onboarding with the given store: service info in the first round, nothing in the second, Done
answered with the device's nonce, and the voucher reported before but not after. -/
def chkOnboard (B : VStore (Voucher Verif.Toy.env)) : Bool :=
  isOk .to2OwnerServiceInfo (reply B (proving B 9) .to2DeviceServiceInfo (key ++ [1])) &&
  decide (bodyOf (reply B (proving B 9) .to2DeviceServiceInfo (key ++ [1])) =
    key ++ encode (.ownerSi ⟨false, false, toSi env.encVal (userItems ⟨['u'], none, none⟩ ++ rebootItems true)⟩)) &&
  decide (bodyOf (reply B (proving B 9 ++ [asks B .to2DeviceServiceInfo (key ++ [1])]) .to2DeviceServiceInfo (key ++ [2])) =
    key ++ encode (.ownerSi ⟨false, true, []⟩)) &&
  decide (bodyOf (reply B (proving B 9 ++ [asks B .to2DeviceServiceInfo (key ++ [1])]) .to2Done (key ++ List.replicate 16 6)) =
    key ++ encode (.done2 (List.replicate 16 7))) &&
  -- another nonce, or another device
  decide (reply B (proving B 9 ++ [asks B .to2DeviceServiceInfo (key ++ [1])]) .to2Done (key ++ List.replicate 16 8) = .reject) &&
  decide (reply B (proving B 10) .to2DeviceServiceInfo (key ++ [1]) = .reject)




example : chkOnboard dirB = true := by decide +kernel
example : chkOnboard dbB = true := by decide +kernel

/-- The history of a whole onboarding. -/
def onboarded (B : VStore (Voucher Verif.Toy.env)) : Hs B :=
  proving B 9 ++ [asks B .to2DeviceServiceInfo (key ++ [1]), asks B .to2Done (key ++ List.replicate 16 6)]

/-- The GUIDs that are reported at a time. -/
def reported (B : VStore (Voucher Verif.Toy.env)) (ls : List Name) (now : Nat) (h : Hs B) : List Bytes :=
  (toReport (R := env) B (now * second) ls (reached env true B cfg some aead encode h).world ++
    toRenew (R := env) B cfg (now * second) (reached env true B cfg some aead encode h).world).map fun v => v.header.guid

def chkReported : Bool :=
  decide (reported dirB [escape (guidText guid)] 1000 (proving dirB 9) = [guid]) &&
  decide (reported dirB [escape (guidText guid)] 1000 (onboarded dirB) = []) &&
  -- the new voucher is selected by the report and by the window check
  decide (reported dbB [] 1000 (proving dbB 9) = [guid, guid]) &&
  decide (reported dbB [] 1000 (onboarded dbB) = [])



example : chkReported = true := by decide +kernel

/-- The codec law holds for the imported voucher. -/
example : (de raw).isSome = true ∧ ((de raw).map fun v => decide (((de (ser v)).map ser) = some raw)) = some true := by
  decide +kernel

/-! ### C39 -/

/-- The state after the first round. -/
def oneRound : Http.St (srv dirB) := reached env true dirB cfg some aead encode (proving dirB 9 ++ [asks dirB .to2DeviceServiceInfo (key ++ [1])])

def chkRound : Bool :=
  match oneRound.sessions ['s'] with
  | some s =>
    decide (s.keys = some ⟨.a128gcm, key⟩) && decide (s.last = some .to2OwnerServiceInfo) && s.data.proven &&
      decide (s.data.guid = some (guidText guid)) && decide (s.data.loops = some 1)
  | none => false

attribute [local irreducible] key

/-- The witness for `C39_maximum_violated`: after the first round, 1000 further rounds are served to the example's
device, more than the maximum of 1000 altogether. -/
theorem C39_example_violated :
    rounds env true dirB cfg (some : List Char → Option (List Char)) aead encode ['s'] oneRound
      (List.replicate maxLoops (asks dirB .to2DeviceServiceInfo (key ++ [1]))) = maxLoops := by
  have h : chkRound = true := by decide +kernel
  unfold chkRound at h
  split at h
  case h_2 => cases h
  rename_i s hs
  simp only [Bool.and_eq_true, decide_eq_true_eq] at h
  obtain ⟨⟨⟨⟨h1, h2⟩, h3⟩, h4⟩, h5⟩ := h
  have hdec : aead.decrypt key (key ++ [1]) = some [1] := by decide +kernel
  have hsi : env.decDeviceSi [1] = some [("devmod:modules".toList, [1, 1])] := congrArg some (if_pos rfl)
  refine C39_maximum_violated (rq dirB .to2DeviceServiceInfo (some ['s']) (key ++ [1]) ['s']) ['s'] ⟨.a128gcm, key⟩
    ⟨rfl, by decide +kernel, rfl, ⟨['s'], rfl, by decide +kernel⟩, rfl, ⟨[1], _, hdec, hsi⟩, fun m => ?_⟩ oneRound s guid hs h1 h2 h3 h4 rfl h5
  exact nofun

/-! ### C40 -/

/-- The entries handed out are those of the voucher; the request for entry 2 of 2 is not answered. -/
def chkEntries : Bool :=
  match de raw with
  | none => false
  | some v =>
    decide (v.entries.contents.length = 2) &&
    decide (((v.entries.contents[0]?).map fun e => encode (.ovEntry 0 e)) =
      some (bodyOf (reply dirB (imported dirB ++ [.request (rq dirB .to2HelloDevice none [1] ['s'])]) .to2GetOVNextEntry [0]))) &&
    decide (((v.entries.contents[1]?).map fun e => encode (.ovEntry 1 e)) =
      some (bodyOf (reply dirB (imported dirB ++ [.request (rq dirB .to2HelloDevice none [1] ['s'])]) .to2GetOVNextEntry [1]))) &&
    decide (reply dirB (imported dirB ++ [.request (rq dirB .to2HelloDevice none [1] ['s'])]) .to2GetOVNextEntry [2] = .reject)

example : chkEntries = true := by decide +kernel

/-- A COSE_Sign1 whose tag is written in two bytes. -/
def longEntry : Bytes := [0xd8, 0x12, 0x84] ++ Verif.Toy.encBytes [] ++ [0xa0] ++ Verif.Toy.encBytes [1] ++ Verif.Toy.encBytes [2]

/-- **C40** is violated for entries which are not in shortest form: they parse and are handed out as other bytes
(so that hashes over the entry, which the next entry contains, differ). -/
theorem C40_entry_violated :
    ∃ v : Voucher env.E, v.entries.contents[0]? = some longEntry ∧
      (∃ s, parseSign1 env.E true longEntry = .ok s) ∧
      (match entry (R := env) true v 0 with
        | .ok e => decide (e ≠ longEntry)
        | _ => false) = true := by
  refine ⟨⟨⟨none, []⟩, 101, exHeader, ⟨.hmacSha256, []⟩, none, ⟨none, [longEntry]⟩⟩, rfl,
    ⟨⟨[], [0xa0], [1], [2]⟩, by decide +kernel⟩, by decide +kernel⟩

end Toy

end Verif.OwnerServer
