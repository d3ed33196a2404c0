import Verif.Basic
/-!
Message types of the protocol and their static attributes
(`data-formats/src/constants/mod.rs`, `data-formats/src/messages/v11/*.rs`).
-/
namespace Verif

/-- `MessageType` (constants/mod.rs:350-395). -/
inductive MsgType where
  | invalid
  | diAppStart
  | diSetCredentials
  | diSetHmac
  | diDone
  | to0Hello
  | to0HelloAck
  | to0OwnerSign
  | to0AcceptOwner
  | to1HelloRV
  | to1HelloRVAck
  | to1ProveToRV
  | to1RVRedirect
  | to2HelloDevice
  | to2ProveOVHdr
  | to2GetOVNextEntry
  | to2OVNextEntry
  | to2ProveDevice
  | to2SetupDevice
  | to2DeviceServiceInfoReady
  | to2OwnerServiceInfoReady
  | to2DeviceServiceInfo
  | to2OwnerServiceInfo
  | to2Done
  | to2Done2
  | diunConnect
  | diunAccept
  | diunRequestKeyParameters
  | diunProvideKeyParameters
  | diunProvideKey
  | diunDone
  | error
  deriving DecidableEq, Repr

namespace MsgType

/-- `message_type as u8` (constants/mod.rs:353-395). -/
def code : MsgType → Nat
  | .invalid => 0
  | .diAppStart => 10
  | .diSetCredentials => 11
  | .diSetHmac => 12
  | .diDone => 13
  | .to0Hello => 20
  | .to0HelloAck => 21
  | .to0OwnerSign => 22
  | .to0AcceptOwner => 23
  | .to1HelloRV => 30
  | .to1HelloRVAck => 31
  | .to1ProveToRV => 32
  | .to1RVRedirect => 33
  | .to2HelloDevice => 60
  | .to2ProveOVHdr => 61
  | .to2GetOVNextEntry => 62
  | .to2OVNextEntry => 63
  | .to2ProveDevice => 64
  | .to2SetupDevice => 65
  | .to2DeviceServiceInfoReady => 66
  | .to2OwnerServiceInfoReady => 67
  | .to2DeviceServiceInfo => 68
  | .to2OwnerServiceInfo => 69
  | .to2Done => 70
  | .to2Done2 => 71
  | .diunConnect => 210
  | .diunAccept => 211
  | .diunRequestKeyParameters => 212
  | .diunProvideKeyParameters => 213
  | .diunProvideKey => 214
  | .diunDone => 215
  | .error => 255

/-- `MessageType::try_from(u8)` (constants/mod.rs:397-406). -/
def ofCode : Nat → Option MsgType
  | 0 => some .invalid
  | 10 => some .diAppStart
  | 11 => some .diSetCredentials
  | 12 => some .diSetHmac
  | 13 => some .diDone
  | 20 => some .to0Hello
  | 21 => some .to0HelloAck
  | 22 => some .to0OwnerSign
  | 23 => some .to0AcceptOwner
  | 30 => some .to1HelloRV
  | 31 => some .to1HelloRVAck
  | 32 => some .to1ProveToRV
  | 33 => some .to1RVRedirect
  | 60 => some .to2HelloDevice
  | 61 => some .to2ProveOVHdr
  | 62 => some .to2GetOVNextEntry
  | 63 => some .to2OVNextEntry
  | 64 => some .to2ProveDevice
  | 65 => some .to2SetupDevice
  | 66 => some .to2DeviceServiceInfoReady
  | 67 => some .to2OwnerServiceInfoReady
  | 68 => some .to2DeviceServiceInfo
  | 69 => some .to2OwnerServiceInfo
  | 70 => some .to2Done
  | 71 => some .to2Done2
  | 210 => some .diunConnect
  | 211 => some .diunAccept
  | 212 => some .diunRequestKeyParameters
  | 213 => some .diunProvideKeyParameters
  | 214 => some .diunProvideKey
  | 215 => some .diunDone
  | 255 => some .error
  | _ => none

/-- `is_valid_previous_message` of the message with this type: di.rs:37-39,76-78,111-113,141-143;
to0.rs:28-30,74-76,156-158,191-193; to1.rs:39-41,82-84,117-119,156-158;
to2.rs:77-79,112-114,147-152,217-219,252-254,287-289,330-332,367-369,410-415,462-464,497-499,532-534;
diun.rs:56-58,91-93,142-144,188-190,231-233,266-268; error.rs:59-61. There is no message of type
`Invalid`. -/
def validPrev : MsgType → Option MsgType → Bool
  | .invalid, _ => false
  | .diAppStart, p => p == none || p == some .diunDone
  | .diSetCredentials, p => p == some .diAppStart
  | .diSetHmac, p => p == some .diSetCredentials
  | .diDone, p => p == some .diSetHmac
  | .to0Hello, p => p == none
  | .to0HelloAck, p => p == some .to0Hello
  | .to0OwnerSign, p => p == some .to0HelloAck
  | .to0AcceptOwner, p => p == some .to0OwnerSign
  | .to1HelloRV, p => p == none
  | .to1HelloRVAck, p => p == some .to1HelloRV
  | .to1ProveToRV, p => p == some .to1HelloRVAck
  | .to1RVRedirect, p => p == some .to1ProveToRV
  | .to2HelloDevice, p => p == none
  | .to2ProveOVHdr, p => p == some .to2HelloDevice
  | .to2GetOVNextEntry, p => p == some .to2ProveOVHdr || p == some .to2OVNextEntry
  | .to2OVNextEntry, p => p == some .to2GetOVNextEntry
  | .to2ProveDevice, p => p == some .to2OVNextEntry
  | .to2SetupDevice, p => p == some .to2ProveDevice
  | .to2DeviceServiceInfoReady, p => p == some .to2SetupDevice
  | .to2OwnerServiceInfoReady, p => p == some .to2DeviceServiceInfoReady
  | .to2DeviceServiceInfo, p => p == some .to2OwnerServiceInfoReady || p == some .to2OwnerServiceInfo
  | .to2OwnerServiceInfo, p => p == some .to2DeviceServiceInfo
  | .to2Done, p => p == some .to2OwnerServiceInfo
  | .to2Done2, p => p == some .to2Done
  | .diunConnect, p => p == none
  | .diunAccept, p => p == some .diunConnect
  | .diunRequestKeyParameters, p => p == some .diunAccept
  | .diunProvideKeyParameters, p => p == some .diunRequestKeyParameters
  | .diunProvideKey, p => p == some .diunProvideKeyParameters
  | .diunDone, p => p == some .diunProvideKey
  | .error, _ => true

end MsgType

/-- `EncryptionRequirement` (messages/mod.rs:21-25). -/
inductive EncReq where
  | mustBe
  | mustNotBe
  deriving DecidableEq, Repr

/-- `encryption_requirement` of the message with this type: di.rs:41-43,80-82,115-117,145-147;
to0.rs:32-34,78-80,160-162,195-197; to1.rs:43-45,86-88,121-123,160-162;
to2.rs:81-83,116-118,154-156,221-223,256-258,291-293,334-336,371-373,417-419,466-468,501-503,536-538;
diun.rs:60-62,95-97,146-148,192-194,235-237,270-272; error.rs:63-65. -/
def MsgType.encReq : MsgType → Option EncReq
  | .invalid | .error => none
  | .diAppStart | .diSetCredentials | .diSetHmac | .diDone => none
  | .to0Hello | .to0HelloAck | .to0OwnerSign | .to0AcceptOwner => some .mustNotBe
  | .to1HelloRV | .to1HelloRVAck | .to1ProveToRV | .to1RVRedirect => some .mustNotBe
  | .to2HelloDevice | .to2ProveOVHdr | .to2GetOVNextEntry | .to2OVNextEntry | .to2ProveDevice => some .mustNotBe
  | .to2SetupDevice | .to2DeviceServiceInfoReady | .to2OwnerServiceInfoReady | .to2DeviceServiceInfo
  | .to2OwnerServiceInfo | .to2Done | .to2Done2 => some .mustBe
  | .diunConnect | .diunAccept | .diunRequestKeyParameters => some .mustNotBe
  | .diunProvideKeyParameters | .diunProvideKey | .diunDone => some .mustBe

/-- Routes (request type, response type) of the rendezvous server (rendezvous-server/src/main.rs:137-163,
handler signatures in handlers_to0.rs and handlers_to1.rs). -/
def rvRoutes : List (MsgType × MsgType) :=
  [(.to0Hello, .to0HelloAck), (.to0OwnerSign, .to0AcceptOwner),
   (.to1HelloRV, .to1HelloRVAck), (.to1ProveToRV, .to1RVRedirect)]

/-- Routes of the owner onboarding server (owner-onboarding-server/src/main.rs:551-586). -/
def ownerRoutes : List (MsgType × MsgType) :=
  [(.to2HelloDevice, .to2ProveOVHdr), (.to2GetOVNextEntry, .to2OVNextEntry),
   (.to2ProveDevice, .to2SetupDevice), (.to2DeviceServiceInfoReady, .to2OwnerServiceInfoReady),
   (.to2DeviceServiceInfo, .to2OwnerServiceInfo), (.to2Done, .to2Done2)]

/-- Routes of the manufacturing server (manufacturing-server/src/main.rs:371-402). -/
def mfgRoutes : List (MsgType × MsgType) :=
  [(.diAppStart, .diSetCredentials), (.diSetHmac, .diDone), (.diunConnect, .diunAccept),
   (.diunRequestKeyParameters, .diunProvideKeyParameters), (.diunProvideKey, .diunDone)]

end Verif
