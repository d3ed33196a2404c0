import Verif.Model.Messages
/-!
The protocol graph, written down independently of the implementation's checks: for each exchange, what the
last response of the session must have been.
-/
namespace Verif.Spec
open MsgType

/-- (last response in the session, request, response). -/
def protocol : List (Option MsgType × MsgType × MsgType) :=
  [ -- device initialization, possibly after DIUN
    (none, diAppStart, diSetCredentials), (some diunDone, diAppStart, diSetCredentials),
    (some diSetCredentials, diSetHmac, diDone),
    -- DIUN
    (none, diunConnect, diunAccept), (some diunAccept, diunRequestKeyParameters, diunProvideKeyParameters),
    (some diunProvideKeyParameters, diunProvideKey, diunDone),
    -- TO0
    (none, to0Hello, to0HelloAck), (some to0HelloAck, to0OwnerSign, to0AcceptOwner),
    -- TO1
    (none, to1HelloRV, to1HelloRVAck), (some to1HelloRVAck, to1ProveToRV, to1RVRedirect),
    -- TO2
    (none, to2HelloDevice, to2ProveOVHdr),
    (some to2ProveOVHdr, to2GetOVNextEntry, to2OVNextEntry), (some to2OVNextEntry, to2GetOVNextEntry, to2OVNextEntry),
    (some to2OVNextEntry, to2ProveDevice, to2SetupDevice),
    (some to2SetupDevice, to2DeviceServiceInfoReady, to2OwnerServiceInfoReady),
    (some to2OwnerServiceInfoReady, to2DeviceServiceInfo, to2OwnerServiceInfo),
    (some to2OwnerServiceInfo, to2DeviceServiceInfo, to2OwnerServiceInfo),
    (some to2OwnerServiceInfo, to2Done, to2Done2) ]

/-- Message types which must be protected by the session keys. -/
def secret : List MsgType :=
  [ diunProvideKeyParameters, diunProvideKey, diunDone,
    to2SetupDevice, to2DeviceServiceInfoReady, to2OwnerServiceInfoReady, to2DeviceServiceInfo,
    to2OwnerServiceInfo, to2Done, to2Done2 ]

/-- Message types which must be sent in clear: everything before keys are established. -/
def clear : List MsgType :=
  [ to0Hello, to0HelloAck, to0OwnerSign, to0AcceptOwner, to1HelloRV, to1HelloRVAck, to1ProveToRV, to1RVRedirect,
    to2HelloDevice, to2ProveOVHdr, to2GetOVNextEntry, to2OVNextEntry, to2ProveDevice,
    diunConnect, diunAccept, diunRequestKeyParameters ]

/-- A path in the protocol graph: the exchanges of one session, starting after response `p`. An
exchange whose request was refused by its handler has no response and leaves the position unchanged. -/
inductive Path : Option MsgType → List (MsgType × Option MsgType) → Prop
  | nil (p : Option MsgType) : Path p []
  | refused {p : Option MsgType} {im om : MsgType} {r : List (MsgType × Option MsgType)} :
      (p, im, om) ∈ protocol → Path p r → Path p ((im, none) :: r)
  | answered {p : Option MsgType} {im om : MsgType} {r : List (MsgType × Option MsgType)} :
      (p, im, om) ∈ protocol → Path (some om) r → Path p ((im, some om) :: r)

end Verif.Spec
