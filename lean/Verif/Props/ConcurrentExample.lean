import Verif.Props.Concurrent
import Verif.Props.ConcurrentRv
import Verif.Props.ConcurrentOwner
import Verif.Props.ConcurrentMfg
import Verif.Props.MfgExample
import Verif.Props.RvExample
import Verif.Props.OwnerExample
/-!
Concrete servers which serve requests at the same time: examples for C88, and what goes wrong when the requests of
one session, or registrations of one device, are served at the same time.
-/
namespace Verif.Http
open Verif Verif.Spec

/-- A request is served without interruption, as number `n`. -/
def served {Sv : Server} {M : Type} (n : Nat) (rq : Request Sv) : List (CEvent Sv M) := [.arrive rq, .work n, .finish n]

abbrev ToyHist := List (CEvent toyServer Empty)
abbrev toyMove : Empty → toyServer.W → toyServer.W := fun m => nomatch m

/-- Session `a` up to OVNextEntry. -/
def toyBegun : ToyHist :=
  served 0 (toyRq .to2HelloDevice none [1] ['a']) ++ served 1 (toyRq .to2GetOVNextEntry (some ['a']) [3] ['d'])

/-- Two sessions at the same time. -/
def toyTwo : ToyHist :=
  [ .arrive (toyRq .to2HelloDevice none [1] ['a']), .arrive (toyRq .to2HelloDevice none [2] ['b']), .work 1, .work 0,
    .finish 0, .arrive (toyRq .to2GetOVNextEntry (some ['a']) [3] ['d']), .finish 1,
    .arrive (toyRq .to2GetOVNextEntry (some ['b']) [3] ['d']), .work 3, .work 2, .drop 3, .finish 2 ]

example : cexchanges (oneStep toyServer) toyMove ['a'] (cstart (0 : Nat)) toyTwo =
    [(.to2HelloDevice, some .to2ProveOVHdr), (.to2GetOVNextEntry, some .to2OVNextEntry)] := by rfl

example : cexchanges (oneStep toyServer) toyMove ['b'] (cstart (0 : Nat)) toyTwo =
    [(.to2HelloDevice, some .to2ProveOVHdr), (.to2GetOVNextEntry, none)] := by rfl

/-- The hypotheses of `C88_order_partial`. -/
example : CFreshIds (oneStep toyServer) toyMove (0 : Nat) toyTwo := freshIds_of _ _ (by decide +kernel)
example : OneByOne (oneStep toyServer) toyMove (0 : Nat) ['a'] toyTwo := oneByOne_of _ _ _ (by decide +kernel)
example : OneByOne (oneStep toyServer) toyMove (0 : Nat) ['b'] toyTwo := oneByOne_of _ _ _ (by decide +kernel)

/-- Twice the same request, served at the same time. -/
def toyTwice : ToyHist := toyBegun ++
  [ .arrive (toyRq .to2ProveDevice (some ['a']) [4] ['e']), .arrive (toyRq .to2ProveDevice (some ['a']) [5] ['f']),
    .work 2, .work 3, .finish 2, .finish 3 ]

theorem toyTwice_log : cexchanges (oneStep toyServer) toyMove ['a'] (cstart (0 : Nat)) toyTwice =
    [(.to2HelloDevice, some .to2ProveOVHdr), (.to2GetOVNextEntry, some .to2OVNextEntry),
     (.to2ProveDevice, some .to2SetupDevice), (.to2ProveDevice, some .to2SetupDevice)] := by rfl

/-- **C88** (order) is violated for requests of one session which are served at the same time: both ProveDevice
requests are answered, though after the first answer the protocol does not allow the second. Ids are fresh. -/
theorem C88_order_violated : ∃ h : ToyHist, CFreshIds (oneStep toyServer) toyMove (0 : Nat) h ∧
    ¬ Path none (cexchanges (oneStep toyServer) toyMove ['a'] (cstart (0 : Nat)) h) := by
  refine ⟨toyTwice, freshIds_of _ _ (by decide +kernel), ?_⟩
  rw [toyTwice_log]
  intro h
  cases h with
  | answered _ h =>
    cases h with
    | answered _ h =>
      cases h with
      | answered _ h =>
        cases h with
        | answered h _ => simp [protocol] at h

/-- Session `a` up to OwnerServiceInfo. -/
def toyInformed : ToyHist := toyBegun ++ served 2 (toyRq .to2ProveDevice (some ['a']) [4] ['e']) ++
  served 3 (toyRq .to2DeviceServiceInfoReady (some ['a']) [9, 5] ['f']) ++
  served 4 (toyRq .to2DeviceServiceInfo (some ['a']) [9, 5] ['f'])

/-- A round of service info is slow: Done is served meanwhile. -/
def toySlow : ToyHist := toyInformed ++ [.arrive (toyRq .to2DeviceServiceInfo (some ['a']) [9, 6] ['f']), .work 5] ++
  served 6 (toyRq .to2Done (some ['a']) [9, 7] ['f'])

/-- **C88** (C26 is violated for requests of one session served at the same time): the session is finished, the slow
request sets it back, and Done is served a second time in the same session. -/
theorem C88_reopened_violated :
    ((creplay (oneStep toyServer) toyMove (cstart (0 : Nat)) toySlow).st.sessions ['a']).bind (·.last) = some .to2Done2 ∧
    ((creplay (oneStep toyServer) toyMove (cstart (0 : Nat)) (toySlow ++ [.finish 5])).st.sessions ['a']).bind (·.last) =
      some .to2OwnerServiceInfo ∧
    replyOf (creplay (oneStep toyServer) toyMove (cstart (0 : Nat)) (toySlow ++ [.finish 5] ++
      [.arrive (toyRq .to2Done (some ['a']) [9, 8] ['f']), .work 7])) 7 = some (.ok .to2Done2 [9, 8] none) :=
  ⟨rfl, rfl, rfl⟩

end Verif.Http

namespace Verif.RvServer.Toy
open Verif Verif.Voucher Verif.Store

abbrev CH (B : Backend (Item rvEnv)) := CHist rvEnv true B cfg (some : List Char → Option (List Char)) aead encode

/-- The reply to request `n` after `h`. -/
def creply (B : Backend (Item rvEnv)) (h : CH B) (n : Nat) : Option Http.Reply :=
  Http.replyOf (creached rvEnv true B cfg some aead encode h) n

/-- Two registrations at the same time, for 100 and for 20 seconds: the item of the second, with the lifetime of the first. -/
def together : CH dirB :=
  [ .arrive (rq dirB .to0Hello none [0x80] ['o'] 5 1), .arrive (rq dirB .to0Hello none [0x80] ['p'] 5 2), .work 1, .work 0,
    .finish 0, .finish 1,
    .arrive (rq dirB .to0OwnerSign (some ['o']) (osBody 12 90 1) ['o'] 5 1),
    .arrive (rq dirB .to0OwnerSign (some ['p']) (osBody 12 20 2) ['p'] 5 2),
    .work 2, .work 3, .work 3, .work 2 ]

/-- The device fetches, at time `now`. -/
def fetching (now : Nat) : CH dirB :=
  [ .finish 2, .finish 3, .arrive (rq dirB .to1HelloRV none (Verif.Toy.encBytes guid) ['d'] now 77), .work 4, .finish 4,
    .arrive (rq dirB .to1ProveToRV (some ['d']) (token 9 (List.replicate 16 77)) ['d'] now 0), .work 5 ]

def chkTogether : Bool :=
  decide (creply dirB together 2 = some (.ok .to0AcceptOwner [2, 90] none)) &&
  decide (creply dirB together 3 = some (.ok .to0AcceptOwner [2, 20] none)) &&
  decide (creply dirB (together ++ fetching 20) 5 = some (.ok .to1RVRedirect (4 :: blob 12 20 2) none)) &&
  decide (creply dirB (together ++ fetching 80) 5 = some (.ok .to1RVRedirect (4 :: blob 12 20 2) none)) &&
  decide (creply dirB (together ++ (fetching 100).take 4) 4 = some .reject)

/-- **C88** (C35 is violated for registrations of one device served at the same time): the blob whose owner was told 20
seconds is still served 75 seconds later, as its entry has the lifetime granted to the other registration. -/
theorem C88_lifetime_violated : chkTogether = true := by decide +kernel

end Verif.RvServer.Toy

namespace Verif.OwnerServer.Toy
open Verif Verif.Voucher Verif.Store Verif.Types Verif.ServiceInfo
open Verif.RvServer.Toy (aead guid)

abbrev CH (B : VStore (Voucher Verif.Toy.env)) : Type :=
  CHist env true (B : VStore (Voucher env.E)) cfg (some : List Char → Option (List Char)) aead encode

def cimported (B : VStore (Voucher Verif.Toy.env)) : CH B :=
  match de raw with
  | some v => [.internal (.import v)]
  | none => []

/-- A request of the session, as number `n`. -/
def cask (B : VStore (Voucher Verif.Toy.env)) (n : Nat) (t : MsgType) (b : Bytes) : CH B :=
  Http.served n (rq B t (some ['s']) b ['s'])

/-- Onboarding in session `s`, while another session is begun and the store is maintained; Done is not yet answered. -/
def conboard (B : VStore (Voucher Verif.Toy.env)) : CH B :=
  cimported B ++ [.arrive (rq B .to2HelloDevice none [1] ['s']), .arrive (rq B .to2HelloDevice none [1] ['t']), .work 1, .work 0,
      .finish 0] ++ cask B 2 .to2GetOVNextEntry [0] ++ [.finish 1] ++ cask B 3 .to2GetOVNextEntry [1] ++
    [.internal (.wait (100 * second) guid 50), .arrive (rq B .to2ProveDevice (some ['s']) (token 9 6) ['s']), .work 4, .expire ['t'],
      .finish 4] ++ cask B 5 .to2DeviceServiceInfoReady (key ++ [0x82]) ++ cask B 6 .to2DeviceServiceInfo (key ++ [1]) ++
    [.arrive (rq B .to2Done (some ['s']) (key ++ List.replicate 16 6) ['s']), .internal (.maintain (100 * second) []), .work 7]

def chkConcurrent (B : VStore (Voucher Verif.Toy.env)) : Bool :=
  decide (Http.replyOf (creached env true B cfg some aead encode (conboard B)) 7 =
    some (.ok .to2Done2 (key ++ encode (.done2 (List.replicate 16 7))) none)) &&
  decide ((toReport (R := env) B (1000 * second) [escape (guidText guid)]
    (creached env true B cfg some aead encode (conboard B)).st.world).map (fun v => v.header.guid) = [])

/-- The hypotheses of `C88_service_info`, `C88_marks` and `C88_confirmations` hold. -/
example : chkConcurrent dirB = true := by decide +kernel
example : chkConcurrent dbB = true := by decide +kernel

end Verif.OwnerServer.Toy

namespace Verif.MfgServer.Toy
open Verif Verif.Voucher Verif.Store Verif.Types
open Verif.RvServer.Toy (aead)

abbrev CH (B : MStore) : Type := CHist env true B cfg (some : List Char → Option (List Char)) aead encode

/-- Two requests served at the same time, as numbers `n` and `n + 1`. -/
def both {B : MStore} (n : Nat) (a b : Http.Request (srv B)) : CH B :=
  [.arrive a, .arrive b, .work (n + 1), .work n, .finish n, .finish (n + 1)]

/-- Two devices, up to AppStart. -/
def cbegin (B : MStore) : CH B :=
  both 0 (rq B .diunConnect none connect ['a'] 0xaa) (rq B .diunConnect none connect ['b'] 0xbb) ++
  both 2 (rq B .diunRequestKeyParameters (some ['a']) [3] ['a'] 0xaa) (rq B .diunRequestKeyParameters (some ['b']) [3] ['b'] 0xbb) ++
  both 4 (rq B .diunProvideKey (some ['a']) (key ++ [4, 9]) ['a'] 0xaa) (rq B .diunProvideKey (some ['b']) (key ++ [4, 10]) ['b'] 0xbb) ++
  both 6 (rq B .diAppStart (some ['a']) (key ++ info) ['a'] 0xaa) (rq B .diAppStart (some ['b']) (key ++ info) ['b'] 0xbb)

/-- The voucher of a device: key and HMAC. -/
def cstored (B : MStore) (h : CH B) (x : UInt8) : Option (Option UInt8 × Hash) :=
  match (B.load 0 (creached env true B cfg some aead encode h).st.world (guidText (List.replicate 16 x))).2 with
  | .ok (some b) =>
    match deserialize (E := Verif.Toy.env) true b with
    | .ok (v, []) => some (v.chain, v.hmac)
    | _ => none
  | _ => none

def chkTwo (B : MStore) : Bool :=
  let h := cbegin B ++ both 8 (rq B .diSetHmac (some ['a']) (key ++ hmac 6) ['a'] 0xaa) (rq B .diSetHmac (some ['b']) (key ++ hmac 7) ['b'] 0xbb)
  decide (cstored B h 0xaa = some (some 9, ⟨.hmacSha256, List.replicate 32 6⟩)) &&
  decide (cstored B h 0xbb = some (some 10, ⟨.hmacSha256, List.replicate 32 7⟩))

/-- The hypothesis of `C88_vouchers` holds: vouchers for both devices are there. -/
example : chkTwo dirM = true := by decide +kernel
example : chkTwo dbM = true := by decide +kernel

def chkOverwritten : Bool :=
  let h := cbegin dirM ++ [.arrive (rq dirM .diSetHmac (some ['a']) (key ++ hmac 6) ['a'] 0xaa),
    .arrive (rq dirM .diSetHmac (some ['a']) (key ++ hmac 8) ['a'] 0xaa), .work 8]
  decide (Http.replyOf (creached env true dirM cfg some aead encode h) 8 = some (.ok .diDone (key ++ [2]) none)) &&
  decide (cstored dirM (h ++ [.finish 8]) 0xaa = some (some 9, ⟨.hmacSha256, List.replicate 32 6⟩)) &&
  decide (cstored dirM (h ++ [.finish 8, .work 9]) 0xaa = some (some 9, ⟨.hmacSha256, List.replicate 32 8⟩))

/-- **C88** (C43 is violated for requests of one session served at the same time): after Done was sent for a SetHMAC, the
voucher is overwritten by one with another HMAC, which came in the same session before Done was sent. -/
theorem C88_overwritten_violated : chkOverwritten = true := by decide +kernel

end Verif.MfgServer.Toy
