import Verif.Props.RvReplace
import Verif.Props.RvDatabase
import Verif.Props.Voucher
import Verif.Props.Rendezvous
/-!
A concrete rendezvous server, used for examples and as witness of the violations of C35 and C36: a device
with GUID aa…aa is registered by the owner with key 12 of its voucher, and fetches the blob.
-/
namespace Verif.RvServer
open Verif Verif.Voucher Verif.Store

namespace Toy

/-- Toy environment: a certificate chain is a byte `p`, for the certificate with key `p` issued by 100. -/
@[reducible] def rvEnv : RvEnv where
  E := Verif.Toy.env
  C := Rendezvous.toyCerts
  certs (p : UInt8) := [(p.toNat, 100), (100, 100)]
  certDigest (q : Nat × Nat) := [UInt8.ofNat q.1]
  certPub (q : Nat × Nat) := some (UInt8.ofNat q.1)
  sameKey (p : UInt8) (k : Nat) := p.toNat == k
  decU32 b := match b with
    | [0x18, x] => some x.toNat
    | _ => none
  decNonce := Verif.Toy.whole Verif.Toy.takeBytes
  decTo1 := Verif.Toy.whole Verif.Toy.takeHash
  decClaims b := (Verif.Toy.whole Verif.Toy.takeBytes b).map fun n =>
    (some n, some (1 :: List.replicate 16 0xaa), none)
  helloOk b := decide (b = [0x80])
  decHelloRv b := (Verif.Toy.whole Verif.Toy.takeBytes b).map fun g => (g, true, [])

def cfg : Config rvEnv := ⟨100, some [(7, 7)], some [(100, 100)]⟩

def aead : Http.Aead := ⟨fun k _ p => some (k ++ p), fun k c => if k.isPrefixOf c then some (c.drop k.length) else none⟩

def encode : Resp → Bytes
  | .helloAck n => 1 :: n
  | .acceptOwner w => [2, UInt8.ofNat w]
  | .helloRvAck n => 3 :: n
  | .redirect t => 4 :: t

def ser (i : Item rvEnv) : Bytes := (show UInt8 from i.key) :: i.to1d
def de : Bytes → Option (Item rvEnv)
  | [] => none
  | k :: t => some ⟨(k : UInt8), t⟩

theorem codec (v : Item rvEnv) : de (ser v) = some v := rfl

def guid : Bytes := List.replicate 16 0xaa

/-- The voucher: manufacturer 7, owners 11 and 12, device key 9 (or another device certificate chain). -/
def voucher (chain : UInt8 := 9) : Option Bytes :=
  match new exHeader ⟨.hmacSha256, List.replicate 32 2⟩ (some chain) with
  | .ok v =>
    match extend true v (7 : UInt8) none (11 : UInt8) with
    | (v, .ok ()) =>
      match extend true v (11 : UInt8) none (12 : UInt8) with
      | (v, .ok ()) =>
        match serialize v with
        | .ok b => some b
        | _ => none
      | _ => none
    | _ => none
  | _ => none

/-- The to0d with the given lifetime and nonce. -/
def to0d (wait : UInt8) (nonce : Bytes) (chain : UInt8 := 9) : Option Bytes :=
  (voucher chain).map fun v => 0x83 :: (v ++ [0x18, wait] ++ Verif.Toy.encBytes nonce)

/-- A to1d: hash of the to0d, signed with key `k`. -/
def to1d (k : UInt8) (to0d : Bytes) : Option Bytes :=
  match signRaw Verif.Toy.env k (Verif.Toy.encHash ⟨.sha256, Verif.Toy.digest .sha256 to0d⟩) with
  | .ok b => some b
  | _ => none

/-- The body of an OwnerSign message. -/
def ownerSign (k wait : UInt8) (nonce : Bytes) (chain : UInt8 := 9) : Option (Bytes × Bytes) :=
  match to0d wait nonce chain with
  | none => none
  | some d =>
    match to1d k d with
    | none => none
    | some t => some (0x82 :: (Verif.Toy.encBytes d ++ t), t)

/-- The token of device `k`. -/
def token (k : UInt8) (nonce : Bytes) : Bytes :=
  match signRaw Verif.Toy.env k (Verif.Toy.encBytes nonce) with
  | .ok b => b
  | _ => []

section
variable (B : Backend (Item rvEnv))

abbrev srv : Http.Server := server rvEnv true B cfg (List Char) some aead encode

/-- A request with time in seconds and server nonce `x…x`. -/
def rq (t : MsgType) (auth : Option (List Char)) (body : Bytes) (cookie : List Char) (now : Nat) (x : UInt8)
    (stopped : Bool := false) : Http.Request (srv B) :=
  ⟨t, true, auth, body, cookie, [], ⟨now * second, some (List.replicate 16 x), stopped⟩, true⟩

/-- The body for the OwnerSign message of key 12. -/
def osBody (k wait x : UInt8) : Bytes := ((ownerSign k wait (List.replicate 16 x)).map (·.1)).getD []

/-- Its blob. -/
def blob (k wait x : UInt8) : Bytes := ((ownerSign k wait (List.replicate 16 x)).map (·.2)).getD []

/-- Registration at time `now` in session `s`, for a lifetime of `wait` seconds. -/
def registration (s : List Char) (k wait x : UInt8) (now : Nat) (stopped : Bool := false) :
    List (Http.Event (srv B) (Nat × List Name)) :=
  [ .request (rq B .to0Hello none [0x80] s now x),
    .request (rq B .to0OwnerSign (some s) (osBody k wait x) s now x stopped) ]

/-- The last reply of a history. -/
def lastReply (h : List (Http.Event (srv B) (Nat × List Name))) (rq : Http.Request (srv B)) : Http.Reply :=
  (Http.step (reached rvEnv true B cfg some aead encode h) rq).2

/-- What device `k` gets at time `now` after history `h`. -/
def fetch (h : List (Http.Event (srv B) (Nat × List Name))) (k : UInt8) (now : Nat) : Http.Reply :=
  lastReply B (h ++ [.request (rq B .to1HelloRV none (Verif.Toy.encBytes guid) ['d'] now 77)])
    (rq B .to1ProveToRV (some ['d']) (token k (List.replicate 16 77)) ['d'] now 0)

end

abbrev dirB : Backend (Item rvEnv) := dirBackend ser de
abbrev dbB : Backend (Item rvEnv) := dbBackend ser de

/-- The blob of a registration is served to the device, and to nobody else. -/
def chkServed : Bool :=
  decide (lastReply dirB [.request (rq dirB .to0Hello none [0x80] ['o'] 5 1)]
      (rq dirB .to0OwnerSign (some ['o']) (osBody 12 60 1) ['o'] 5 1) = .ok .to0AcceptOwner [2, 60] none) &&
  decide (fetch dirB (registration dirB ['o'] 12 60 1 5) 9 50 = .ok .to1RVRedirect (4 :: blob 12 60 1) none) &&
  decide (fetch dirB (registration dirB ['o'] 12 60 1 5) 10 50 = .reject)

example : chkServed = true := by decide +kernel

/-- A registration signed by a former owner, or with another session's nonce, is refused. -/
def chkRefused : Bool :=
  decide (lastReply dirB [.request (rq dirB .to0Hello none [0x80] ['o'] 5 1)]
      (rq dirB .to0OwnerSign (some ['o']) (osBody 11 60 1) ['o'] 5 1) = .reject) &&
  decide (lastReply dirB [.request (rq dirB .to0Hello none [0x80] ['o'] 5 1)]
      (rq dirB .to0OwnerSign (some ['o']) (osBody 12 60 2) ['o'] 5 1) = .reject)

example : chkRefused = true := by decide +kernel

/-- The lifetime is capped, and the blob is gone afterwards. -/
def chkExpires : Bool :=
  decide (lastReply dirB [.request (rq dirB .to0Hello none [0x80] ['o'] 5 1)]
      (rq dirB .to0OwnerSign (some ['o']) (osBody 12 200 1) ['o'] 5 1) = .ok .to0AcceptOwner [2, 100] none) &&
  decide (fetch dirB (registration dirB ['o'] 12 200 1 5) 9 104 = .ok .to1RVRedirect (4 :: blob 12 200 1) none) &&
  decide (fetch dirB (registration dirB ['o'] 12 200 1 5) 9 106 = .reject)

example : chkExpires = true := by decide +kernel

/-- With the directory store, the newer registration replaces the older one. -/
def chkReplaced : Bool :=
  decide (fetch dirB (registration dirB ['o'] 12 60 1 5 ++ registration dirB ['p'] 12 70 2 6) 9 50 =
    .ok .to1RVRedirect (4 :: blob 12 70 2) none)

example : chkReplaced = true := by decide +kernel

/-- With the database store, the newer registration is refused and the older blob is served. -/
def chkNotReplaced : Bool :=
  decide (lastReply dbB (registration dbB ['o'] 12 60 1 5 ++ [.request (rq dbB .to0Hello none [0x80] ['p'] 6 2)])
      (rq dbB .to0OwnerSign (some ['p']) (osBody 12 70 2) ['p'] 6 2) = .reject) &&
  decide (fetch dbB (registration dbB ['o'] 12 60 1 5 ++ registration dbB ['p'] 12 70 2 6) 9 50 =
    .ok .to1RVRedirect (4 :: blob 12 60 1) none)

/-- The witness for `C36_database_violated`. -/
theorem C36_not_replaced_violated : chkNotReplaced = true := by decide +kernel

/-- With the database store, the blob is served after its lifetime until maintenance is done; with the
directory store, it is served for ever if the server stopped before setting the lifetime. -/
def chkServedLater : Bool :=
  decide (fetch dbB (registration dbB ['o'] 12 60 1 5) 9 100000 = .ok .to1RVRedirect (4 :: blob 12 60 1) none) &&
  decide (fetch dbB (registration dbB ['o'] 12 60 1 5 ++ [.internal (100000 * second, [])]) 9 100000 = .reject) &&
  decide (fetch dirB (registration dirB ['o'] 12 60 1 5 true) 9 100000 = .ok .to1RVRedirect (4 :: blob 12 60 1) none)

/-- The witness for `C35_database_violated` and `C35_stopped_violated`. -/
theorem C35_served_later_violated : chkServedLater = true := by decide +kernel

/-! ### C63 -/

/-- Run the checks of a registration; the header of the voucher and the device key that would be stored. -/
def checked (chain : UInt8) : Option (Option Hash × Bytes × UInt8) :=
  match to0d 60 (List.replicate 16 1) chain with
  | none => none
  | some d =>
    match to1d 12 d, parseTo0d rvEnv true d with
    | some t, .ok x =>
      match checkOwnerSign rvEnv true cfg (List.replicate 16 1) d t with
      | .ok r => some (x.voucher.header.chainHash, r.guid, r.item.key)
      | _ => none
    | _, _ => none

/-- Chains 9 and 10 are both accepted with the same header, for different device keys. -/
def chkAnyChain : Bool :=
  decide (checked 9 = some (exHeader.chainHash, guid, 9)) && decide (checked 10 = some (exHeader.chainHash, guid, 10))

/-- **C63** is violated: registrations with two different device certificate chains, and hence different
device keys, are accepted under the same voucher header, so the header's certificate chain hash (which can
match at most one of them) is not looked at. -/
theorem C63_chain_hash_unchecked_violated : chkAnyChain = true := by decide +kernel

end Toy

/-- **C63**, general form of the violation: replacing the chain hash in the header of a voucher does not
matter to the device key that a registration stores; only the chain itself does. -/
theorem C63_device_key_from_chain_violated {R : RvEnv} {c : Bool} (cfg : Config R) (n to0d to1d : Bytes) (r : Registration R)
    (h : checkOwnerSign R c cfg n to0d to1d = .ok r) :
    ∃ t, parseTo0d R c to0d = .ok t ∧ deviceKey R cfg t.voucher.chain = .ok r.item.key ∧
      ∀ x : Option Hash, deviceKey R cfg ({ t.voucher with header := { t.voucher.header with chainHash := x } }).chain =
        .ok r.item.key := by
  unfold checkOwnerSign at h
  obtain ⟨t, ht, h⟩ := Res.bind_eq_ok.1 h
  split at h
  · cases h
  obtain ⟨_, _, h⟩ := Res.bind_eq_ok.1 h
  obtain ⟨_, _, h⟩ := Res.bind_eq_ok.1 h
  obtain ⟨_, _, h⟩ := Res.bind_eq_ok.1 h
  obtain ⟨_, _, h⟩ := Res.bind_eq_ok.1 h
  obtain ⟨k, hk, h⟩ := Res.bind_eq_ok.1 h
  cases h
  exact ⟨t, ht, hk, fun _ => hk⟩

end Verif.RvServer
