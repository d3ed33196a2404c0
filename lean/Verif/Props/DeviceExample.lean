import Verif.Props.DeviceEnd
import Verif.Props.OwnerExample
import Verif.Lemmas.TalkRun
/-!
A concrete device, used for examples and as witness of violations: the device with GUID aa…aa and key 9 finds its owner 12 with
the help of a rendezvous server and is onboarded by the owner's server of the model.
-/
namespace Verif.Device
open Verif Verif.Voucher Verif.Store Verif.Types Verif.ServiceInfo Verif.Fs

namespace Toy
open Verif.RvServer.Toy (aead guid)
open Verif.Toy (encBytes takeBytes whole textBytes bytesText)

/-- The toy environment, where byte strings are read up to the length that Rust's vectors can have. -/
@[reducible] def sized : Env := { Verif.Toy.env with
  decBytes := fun b => (whole takeBytes b).filter fun x => decide (x.length < 2 ^ 63) }

/-- Codecs for some values. -/
def encLeaf : Val → Bytes
  | .bool b => [0, if b then 1 else 0]
  | .text s => 1 :: textBytes s
  | .int n => [2, UInt8.ofNat n.toNat]
  | .bytes b => 3 :: b
  | _ => [3]

def decLeaf : Bytes → Option Val
  | [0, b] => some (.bool (b == 1))
  | 1 :: r => some (.text (bytesText (r.length / 4) r))
  | [2, n] => some (.int n.toNat)
  | _ => none

/-- Reading byte strings up to the end. -/
def takeAll : Nat → Bytes → Option (List Bytes)
  | _, [] => some []
  | 0, _ => none
  | n + 1, b =>
    match takeBytes b with
    | some (x, r) => (takeAll n r).map (x :: ·)
    | none => none

def encVal : Val → Bytes
  | .array l => 4 :: l.flatMap fun v => encBytes (encLeaf v)
  | v => encLeaf v

def decVal : Bytes → Option Val
  | 4 :: r => ((takeAll r.length r).bind fun l => l.mapM decLeaf).map .array
  | b => decLeaf b

def encSi (si : ServiceInfo) : Bytes := si.flatMap fun x => encBytes (textBytes x.1) ++ encBytes x.2

def pairs : List Bytes → Option ServiceInfo
  | [] => some []
  | [_] => none
  | k :: v :: r => (pairs r).map ((bytesText (k.length / 4) k, v) :: ·)

def decSi (b : Bytes) : Option ServiceInfo := (takeAll b.length b).bind pairs

def encClaims (n u : Bytes) (f : Option Bytes) : Bytes := encBytes n ++ (encBytes u ++ (f.map encBytes).getD [])

def decClaims (b : Bytes) : Option (Option Bytes × Option Bytes × Option Bytes) :=
  match takeAll 3 b with
  | some [n, u] => some (some n, some u, none)
  | some [n, u, f] => some (some n, some u, some f)
  | _ => none

def encSig : OwnerServer.SigType → Bytes
  | .es256 => [1]
  | .es384 => [2]
  | .other => [3]

def decSig : Bytes → Option OwnerServer.SigType
  | [1] => some .es256
  | [2] => some .es384
  | [3] => some .other
  | _ => none

/-- The device's credential: its HMAC secret is `[3]`, the manufacturer's key is 7. The HMAC is made of twos. -/
def cred : Credential.Cred :=
  ⟨true, 101, [], guid, [0x80], ⟨.sha256, Verif.Toy.digest .sha256 [0x18, 7]⟩, .plain [3] [9]⟩

@[reducible] def env : DevEnv where
  E := sized
  C := Rendezvous.toyCerts
  certs (p : UInt8) := [(p.toNat, 100), (100, 100)]
  certDigest (q : Nat × Nat) := [UInt8.ofNat q.1]
  certPub (q : Nat × Nat) := some (UInt8.ofNat q.1)
  sameKey (p : UInt8) (k : Nat) := p.toNat == k
  decU32 b := match b with
    | 0x1a :: r => if r.length = 4 then some (beNat r) else none
    | _ => none
  decNonce := whole takeBytes
  decTo1 := whole Verif.Toy.takeHash
  decClaims := decClaims
  helloOk b := decide (b = [0x80])
  decHelloRv b := (whole takeBytes b).map fun g => (g, true, [])
  leafKey (q : Nat × Nat) := some (UInt8.ofNat q.1)
  K := toyKex
  encU16 n := [0x19, UInt8.ofNat (n / 256), UInt8.ofNat n]
  decU16 b := match b with
    | [0x19, x, y] => some (x.toNat * 256 + y.toNat)
    | _ => none
  encNonce := encBytes
  encSig := encSig
  decSig := decSig
  encU32 n := 0x1a :: Cbor.toBe 4 n
  encTo1 := Verif.Toy.encHash
  encUnprot n k := encBytes ((show UInt8 from k) :: n)
  cuphNonce b := some ((whole takeBytes b).map (·.drop 1))
  cuphOwner b := some ((whole takeBytes b).bind (·.head?))
  euphNonce b := some (whole takeBytes b)
  decProve := whole takeBytes
  encSetup g n k := g ++ n ++ [(k : UInt8)]
  decHello b := match takeAll 2 b with
    | some [g, n] => some ⟨g, n, .ecdh384, .a256gcm, .es384, []⟩
    | _ => none
  decGetEntry b := match b with
    | [x] => some x.toNat
    | _ => none
  decReady b := decide (b = [0x82])
  decDeviceSi := decSi
  decDone := whole takeBytes
  encVal := encVal
  decVal := decVal
  D := ⟨Bytes, some, fun _ => none, fun _ => none, fun _ => some "rv", fun _ => none, fun _ => none, fun _ => some .http⟩
  directives _ := [[(.dns, []), (.protocol, [])]]
  showIp _ := ""
  H := ⟨fun t _ _ => List.replicate t.digestSize 2, fun _ _ _ => none⟩
  codec := ⟨fun c => [if c.active then 1 else 0], fun b => if b = [1] then some cred else if b = [0] then some { cred with active := false } else none⟩
  encHelloRv := encBytes
  decHelloAck b := (whole takeBytes b).map fun n => (n, .es384, [])
  decAddrs _ := some [⟨none, some "owner", 8081, .http⟩]
  encClaims := encClaims
  encProve := encBytes
  encEuph := encBytes
  decSigInfo b := (decSig b).map fun s => (s, [])
  encHello m := encBytes m.guid ++ encBytes m.nonce5
  encGetEntry n := [UInt8.ofNat n]
  encReady := [0x82]
  decOwnerReady b := if b = [4] then some () else none
  encDeviceSi := encSi
  decOwnerSi b := match b with
    | x :: y :: r => (decSi r).map fun si => ⟨x == 1, y == 1, si⟩
    | _ => none
  encDone := encBytes
  decDone2 := whole takeBytes
  encError _ _ := [0]
  decError _ := some ()

theorem codecLaws : CodecLaws env.E where
  bytes_dec b h := by
    have := Verif.Toy.codecLaws.bytes_dec b h
    change (whole takeBytes (encBytes b)).filter _ = some b
    rw [show whole takeBytes (encBytes b) = some b from this]
    simp only [Option.filter, decide_eq_true h, if_true]
  bytes_item := Verif.Toy.codecLaws.bytes_item
  payload_dec := Verif.Toy.codecLaws.payload_dec

theorem isSized : Sized env := by
  intro b x h
  have h : (whole takeBytes b).filter (fun x => decide (x.length < 2 ^ 63)) = some x := h
  rw [Option.filter_eq_some_iff] at h
  simpa using h.2

def cfg : OwnerServer.Config env.toOwnerEnv := ⟨(12 : UInt8), (12 : UInt8), (13 : UInt8), (13 : UInt8), none, 600, 61⟩

def encode : OwnerServer.Resp → Bytes
  | .proveOvHdr t => t
  | .ovEntry n e => 0x82 :: (env.encU16 n ++ e)
  | .setupDevice t => t
  | .ownerReady => [4]
  | .ownerSi m => (if m.isMore then 1 else 0) :: (if m.isDone then 1 else 0) :: encSi m.si
  | .done2 n => encBytes n

/-- The voucher's header, see `exHeader`. -/
def header : Header sized :=
  Header.new sized 101 guid () "FDO device 1" (7 : UInt8) (some ⟨.sha256, List.replicate 32 1⟩)

/-- The voucher, see `RvServer.Toy.voucher`. -/
def voucher : Option (Voucher sized) :=
  match new header ⟨.hmacSha256, List.replicate 32 2⟩ (some (9 : UInt8)) with
  | .ok v =>
    match extend (E := sized) true v (7 : UInt8) none (11 : UInt8) with
    | (v, .ok ()) =>
      match extend (E := sized) true v (11 : UInt8) none (12 : UInt8) with
      | (v, .ok ()) => some v
      | _ => none
    | _ => none
  | _ => none

def ser (v : Voucher sized) : Bytes :=
  match serialize v with
  | .ok b => b
  | _ => []

def de (b : Bytes) : Option (Voucher sized) :=
  match deserialize (E := sized) true b with
  | .ok (v, _) => some v
  | _ => none

abbrev B : OwnerServer.VStore (Voucher sized) := OwnerServer.dirStore ser de

abbrev srv : Http.Server := OwnerServer.server env.toOwnerEnv true (B : OwnerServer.VStore (Voucher env.E)) cfg (List Char) some aead encode

/-- The owner's server asks for a reboot. -/
def rq (q : Http.Sent) : Http.Request srv :=
  ⟨q.type, true, q.auth, q.body, ['s'], [], ⟨100 * second, some (List.replicate 16 6), some ((5 : UInt8), List.replicate 48 2),
    some (List.replicate 16 0xbb), false, fun _ => some ⟨none, none, some true⟩⟩, true⟩

/-- The owner's server with the voucher. -/
def stocked : Http.St srv :=
  match voucher with
  | some v => ⟨fun _ => none, (B.put B.empty (guidText guid) v).1⟩
  | none => Http.start B.empty

/-- The redirect blob, signed by `k`. -/
def redirect (k : UInt8) : Bytes :=
  match signRaw sized k [0x80] with
  | .ok b => b
  | _ => []

/-- State of the device's surroundings: number of messages so far, the owner's server, and the files. -/
structure Now where
  n : Nat
  server : Http.St srv
  files : Files

/-- The device's operating system. Signatures are made with the key 9. -/
def os (s : Now) : (e : Op) → Now × Op.Ans env e
  | .connect _ => (s, ())
  | .nonce => (s, some (List.replicate 16 (UInt8.ofNat s.n)))
  | .kex => (s, some ((3 : UInt8), List.replicate 48 1))
  | .uuid => (s, [1])
  | .sign p => (s, sized.sign (9 : UInt8) p)
  | .host _ op => (s, SiClient.Toy.answer (some 0) (fun _ => true) op)
  | .fs (.create p) => ({ s with files := s.files.set p (some []) }, true)
  | .fs (.append p b) => ({ s with files := s.files.set p ((s.files p).map (· ++ b)) }, true)
  | .fs (.read p) => (s, s.files p)
  | .fs (.exists? p) => (s, (s.files p).isSome)
  | .fs (.rename _ _) => (s, false)
  | .fs (.remove _) => (s, false)
  | .sleep _ => (s, ())
  | .reencrypt => (s, true)
  | .reboot => (s, some true)

/-- The network: a rendezvous server whose redirect blob is signed by `k`, and the owner's server. A message of type `lost` does
not arrive. -/
def net (k : UInt8) (lost : Option MsgType) (s : Now) (q : Http.Sent) : Now × Option Http.NetReply :=
  if some q.type = lost then ({ s with n := s.n + 1 }, none)
  else if q.type = .to1HelloRV then
    ({ s with n := s.n + 1 }, some ⟨true, .code MsgType.to1HelloRVAck.code, none, false, encBytes [1, 2, 3]⟩)
  else if q.type = .to1ProveToRV then
    ({ s with n := s.n + 1 }, some ⟨true, .code MsgType.to1RVRedirect.code, none, false, redirect k⟩)
  else (⟨s.n + 1, (Http.step s.server (rq q)).1, s.files⟩, some (Http.arrive false (Http.step s.server (rq q)).2))

def around (k : UInt8) (lost : Option MsgType) (s : Now) : (e : (sig env).Eff) → Now × (sig env).Ans e
  | .iv => (s, [])
  | .app e => os s e
  | .net q => net k lost s q

/-- The credential is in its usual place, and nothing else. -/
def place : Credential.Surroundings := ⟨fun p => p == Credential.etcPath, fun _ => none⟩
def loc : Credential.Location := ⟨Credential.etcPath, .deactivate⟩
def fresh : Now := ⟨0, stocked, Files.set (fun _ => none) Credential.etcPath (some [1])⟩

/-- The client, for one round. -/
abbrev client : Proc (sig env) DevErr Unit := main true aead place SiClient.Toy.host 1

def final (k : UInt8) (lost : Option MsgType) : Now × Res DevErr Unit := Prog.exec (around k lost) fresh client
def history (k : UInt8) (lost : Option MsgType) : Trace (sig env) := Prog.doings (around k lost) fresh client

theorem history_ends (k : UInt8) (lost : Option MsgType) : Prog.Ends client (history k lost) (final k lost).2 := Prog.exec_ends _ _ _

/-- How far the runs get: the first component is the result. -/
def over (r : Res DevErr Unit) : Bool :=
  match r with
  | .ok () => true
  | _ => false

/-- Whether a deed is one of the host, a reboot, or writes a file. -/
def hosts (d : (sig env).Deed) : Bool :=
  match d with
  | ⟨.app (.host _ _), _⟩ => true
  | _ => false

def reboots (d : (sig env).Deed) : Bool :=
  match d with
  | ⟨.app .reboot, _⟩ => true
  | _ => false

def writes (q : Path) (x : Bytes) (d : (sig env).Deed) : Bool :=
  match d with
  | ⟨.app (.fs (.append p b)), a⟩ => p == q && b == x && (show Bool from a)
  | _ => false

def sends (t : MsgType) (d : (sig env).Deed) : Bool :=
  match d with
  | ⟨.net q, _⟩ => decide (q.type = t)
  | _ => false

/-- A Done which was answered. -/
def answered (d : (sig env).Deed) : Bool :=
  match d with
  | ⟨.net q, some _⟩ => decide (q.type = .to2Done)
  | _ => false

/-- The run in which nothing goes wrong. -/
theorem good_run : over (final 12 none).2 = true ∧ (history 12 none).any hosts = true ∧ (history 12 none).any reboots = true ∧
    (history 12 none).any (writes (markerPath place) executed) = true ∧ (history 12 none).any (sends .to2Done) = true := by
  decide +kernel

/-- The run in which Done is lost. -/
theorem lost_run : (history 12 (some .to2Done)).any (writes (markerPath place) executed) = true ∧
    (history 12 (some .to2Done)).any (writes loc.path (env.codec.enc { cred with active := false })) = true ∧
    (history 12 (some .to2Done)).all (fun d => !answered d) = true ∧
    ((final 12 (some .to2Done)).1.files loc.path).bind env.codec.dec = some { cred with active := false } ∧
    ((final 12 (some .to2Done)).1.files (markerPath place)) = some executed := by
  decide +kernel

theorem mem_writes {q : Path} {x : Bytes} {t : Trace (sig env)} (h : t.any (writes q x) = true) :
    (⟨.app (.fs (.append q x)), true⟩ : (sig env).Deed) ∈ t := by
  obtain ⟨d, hd, h⟩ := List.any_eq_true.1 h
  obtain ⟨e, a⟩ := d
  match e, a, h, hd with
  | .app (.fs (.append p b)), a, h, hd =>
    have key : ∀ z : Bool, (p == q && b == x && z) = true → p = q ∧ b = x ∧ z = true := by
      intro z hz
      simp only [Bool.and_eq_true, beq_iff_eq] at hz
      exact ⟨hz.1.1, hz.1.2, hz.2⟩
    obtain ⟨rfl, rfl, ha⟩ := key a h
    subst ha
    exact hd

theorem not_answered {t : Trace (sig env)} (h : t.all (fun d => !answered d) = true) (s : Http.Sent) (r : Option Http.NetReply)
    (hd : (⟨.net s, r⟩ : (sig env).Deed) ∈ t) (hs : s.type = .to2Done) : r = none := by
  cases r with
  | none => rfl
  | some r =>
    have := List.all_eq_true.1 h _ hd
    simp [answered, hs] at this

/-- A deed of a run is reached. -/
theorem reached {t : Trace (sig env)} {r : Res DevErr Unit} (he : Prog.Ends client t r) {f : (sig env).Deed → Bool}
    (h : t.any f = true) : ∃ t1 d, Proc.Reaches client t1 d ∧ f d = true := by
  obtain ⟨d, hd, hf⟩ := List.any_eq_true.1 h
  obtain ⟨t1, t2, rfl⟩ := List.append_of_mem hd
  exact ⟨t1, d, ⟨t2, _, he⟩, hf⟩

/-- The hypotheses of `C46_vetted` and `C46_service_info` are met. -/
example : ∃ t m op a, Proc.Reaches client t ⟨.app (.host m op), a⟩ ∧ Weighty (R := env) (.app (.host m op)) := by
  obtain ⟨t, ⟨e, a⟩, hr, h⟩ := reached (history_ends 12 none) good_run.2.1
  match e, a, h, hr with
  | .app (.host m op), a, h, hr => exact ⟨t, m, op, a, hr, trivial⟩

/-- The hypotheses of `C46_sealed` are met. -/
example : ∃ t s r, Proc.Reaches client t ⟨.net s, r⟩ ∧ s.type = .to2Done := by
  obtain ⟨t, ⟨e, a⟩, hr, h⟩ := reached (history_ends 12 none) good_run.2.2.2.2
  match e, a, h, hr with
  | .net q, a, h, hr => exact ⟨t, q, a, hr, of_decide_eq_true h⟩

/-- The hypotheses of `C48_complete_partial` are met. -/
example : ∃ t o a, Proc.Reaches client t ⟨.app (.fs o), a⟩ ∧ ∀ p, o ≠ .read p := by
  obtain ⟨t, ⟨e, a⟩, hr, h⟩ := reached (history_ends 12 none) good_run.2.2.2.1
  match e, a, h, hr with
  | .app (.fs (.append p b)), a, h, hr => exact ⟨t, _, a, hr, nofun⟩

/-- The hypotheses of `C48_ends_partial` are met, with an active credential. -/
example : Prog.Ends client (history 12 none) (.ok ()) ∧ place.exists? (markerPath place) = false ∧
    Credential.find place = some (.ok loc) ∧ env.codec.dec [1] = some cred ∧ cred.active = true := by
  refine ⟨?_, by decide +kernel, by decide +kernel, rfl, rfl⟩
  have h := history_ends 12 none
  have h1 := good_run.1
  cases hr : (final 12 none).2 with
  | ok u => rwa [hr] at h
  | err e => rw [hr] at h1; cases h1
  | panic => rw [hr] at h1; cases h1

/-- The hypothesis of `C54_reboot_only` is met. -/
example : ∃ t a, Proc.Reaches client t ⟨.app .reboot, a⟩ := by
  obtain ⟨t, ⟨e, a⟩, hr, h⟩ := reached (history_ends 12 none) good_run.2.2.1
  match e, a, h, hr with
  | .app .reboot, a, h, hr => exact ⟨t, a, hr⟩

/-- With a redirect blob signed by somebody else, the device does not prove its identity, let alone process service info. -/
example : (history 11 none).any (sends .to2GetOVNextEntry) = true ∧ (history 11 none).any (sends .to2ProveDevice) = false ∧
    (history 11 none).any hosts = false := by
  decide +kernel

end Toy

/-- **C48** is violated: a device marks itself as onboarded and deactivates its credential although the owner's server never
acknowledged: none of its Done messages is answered. -/
theorem C48_unacknowledged_violated : ∃ (R : DevEnv) (c : Bool) (A : Http.Aead) (w : Credential.Surroundings) (h : SiClient.Host)
    (n : Nat) (t : Trace (sig R)) (r : Res DevErr Unit) (l : Credential.Location) (cr : Credential.Cred),
    CodecLaws R.E ∧ Sized R ∧ Prog.Ends (main c A w h n) t r ∧ Credential.find w = some (.ok l) ∧ ReadFrom l t cr ∧ cr.active = true ∧
    (⟨.app (.fs (.append (markerPath w) executed)), true⟩ : (sig R).Deed) ∈ t ∧
    (⟨.app (.fs (.append l.path (R.codec.enc { cr with active := false }))), true⟩ : (sig R).Deed) ∈ t ∧
    ∀ s r, (⟨.net s, r⟩ : (sig R).Deed) ∈ t → s.type = .to2Done → r = none := by
  refine ⟨Toy.env, true, RvServer.Toy.aead, Toy.place, SiClient.Toy.host, 1, Toy.history 12 (some .to2Done),
    (Toy.final 12 (some .to2Done)).2, Toy.loc, Toy.cred, Toy.codecLaws, Toy.isSized, Toy.history_ends _ _, by decide +kernel,
    ⟨[1], ?_, rfl⟩, rfl, Toy.mem_writes Toy.lost_run.1, Toy.mem_writes Toy.lost_run.2.1, Toy.not_answered Toy.lost_run.2.2.1⟩
  exact List.mem_cons_self ..

end Verif.Device
