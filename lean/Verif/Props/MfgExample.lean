import Verif.Props.MfgKept
import Verif.Props.OwnerExample
/-!
A concrete manufacturing server, which meets the hypotheses of `C42_admitted`, `C43_consistent`, `C43_kept` and
`C45_no_abort`: a device with key 9 goes through DIUN and DI; its voucher is extended from the manufacturer with
key 7 to the owner with key 12. And corollaries for the two kinds of stores.
-/
namespace Verif.MfgServer
open Verif Verif.Voucher Verif.Store Verif.Types

/-! ### The two stores -/

section
variable {R : MfgEnv} {c : Bool} {cfg : Config R}
  {Id : Type} [DecidableEq Id] {idOf : List Char → Option Id} {aead : Http.Aead} {encode : Resp → Bytes}

/-- **C42** for the directory store: a voucher that can be loaded certifies a key from an admitted source. -/
theorem C42_directory (L : Laws R cfg) (st : Settings R) (hst : startup R st = some cfg)
    (h : Hist R c dirM cfg idOf aead encode) (hsm : SmallHeaders R c dirM cfg idOf aead encode h) (k : Name) (hk : Good k)
    (b : Bytes) (hsz : b.length < 2 ^ 63) (now : Nat)
    (hb : (dirM.load now (reached R c dirM cfg idOf aead encode h).world k).2 = .ok (some b)) :
    ∃ v ch dev rest key h1 rq h2 i ks hmac info der, deserialize c b = .ok (v, []) ∧ v.chain = some ch ∧
      R.certs ch = dev :: rest ∧ R.C.publicKey dev = some key ∧ R.keyFromDer der = some key ∧
      h = h1 ++ .request rq :: h2 ∧ Answered R c dirM cfg idOf aead encode h1 rq i ks hmac ∧
      ((∃ h0 ks', h0 <+: h1 ∧ ks = some ks' ∧ Provided R c dirM cfg idOf aead encode h0 i der ks') ∨
       (st.plainDi = some true ∧ cfg.keyStore = true ∧ ∃ h0 rq0 hr plain raw, h1 = h0 ++ .request rq0 :: hr ∧
         rq0.type = .diAppStart ∧ Http.InSession (reached R c dirM cfg idOf aead encode h0) rq0 i ∧
         Http.decryptWith aead ks rq0.body = some plain ∧
         R.decAppStart plain = some raw ∧ R.decMfgInfo raw = some (some info) ∧
         rq0.oracle.keys info.toList = .ok (some der))) :=
  C42_admitted dir_sound L st hst h hsm k hk b hsz (dir_sound.held now _ k b hb)

/-- **C42** for the database store. -/
theorem C42_database (L : Laws R cfg) (st : Settings R) (hst : startup R st = some cfg)
    (h : Hist R c dbM cfg idOf aead encode) (hsm : SmallHeaders R c dbM cfg idOf aead encode h) (k : Name) (hk : Good k)
    (b : Bytes) (hsz : b.length < 2 ^ 63) (now : Nat)
    (hb : (dbM.load now (reached R c dbM cfg idOf aead encode h).world k).2 = .ok (some b)) :
    ∃ v ch dev rest key h1 rq h2 i ks hmac info der, deserialize c b = .ok (v, []) ∧ v.chain = some ch ∧
      R.certs ch = dev :: rest ∧ R.C.publicKey dev = some key ∧ R.keyFromDer der = some key ∧
      h = h1 ++ .request rq :: h2 ∧ Answered R c dbM cfg idOf aead encode h1 rq i ks hmac ∧
      ((∃ h0 ks', h0 <+: h1 ∧ ks = some ks' ∧ Provided R c dbM cfg idOf aead encode h0 i der ks') ∨
       (st.plainDi = some true ∧ cfg.keyStore = true ∧ ∃ h0 rq0 hr plain raw, h1 = h0 ++ .request rq0 :: hr ∧
         rq0.type = .diAppStart ∧ Http.InSession (reached R c dbM cfg idOf aead encode h0) rq0 i ∧
         Http.decryptWith aead ks rq0.body = some plain ∧
         R.decAppStart plain = some raw ∧ R.decMfgInfo raw = some (some info) ∧
         rq0.oracle.keys info.toList = .ok (some der))) :=
  C42_admitted db_sound L st hst h hsm k hk b hsz (db_sound.held now _ k b hb)

end

namespace Toy
open Verif.RvServer.Toy (aead guid)

/-- Messages of the toy device. The length of the nonce is written as a row of ones. -/
def encConnect (m : Connect) : Bytes :=
  (match m.kex with | .ecdh256 => 0 | .ecdh384 => 1 | .dhkex14 => 2 | .dhkex15 => 3) ::
  (match m.cipher with | .a128gcm => 0 | .a256gcm => 1) ::
  (List.replicate m.nonce.length 1 ++ 0 :: (m.nonce ++ m.keyExchange))

def decConnect : Bytes → Option Connect
  | k :: c :: r =>
    let n := (r.takeWhile (· == 1)).length
    some ⟨(r.drop (n + 1)).take n, (if k = 0 then .ecdh256 else if k = 1 then .ecdh384 else if k = 2 then .dhkex14 else .dhkex15),
      (if c = 0 then .a128gcm else .a256gcm), (r.drop (n + 1)).drop n⟩
  | _ => none

theorem ones (n : Nat) (r : Bytes) : ((List.replicate n 1 ++ 0 :: r).takeWhile (· == (1 : UInt8))).length = n := by
  induction n with
  | zero => rfl
  | succ n ih =>
    rw [List.replicate_succ, List.cons_append, List.takeWhile_cons_of_pos (by rfl), List.length_cons, ih]

theorem decConnect_enc (m : Connect) : decConnect (encConnect m) = some m := by
  obtain ⟨n, k, c, x⟩ := m
  have hd : ((List.replicate n.length (1 : UInt8) ++ 0 :: (n ++ x)).drop (n.length + 1)) = n ++ x := by
    rw [List.drop_append, List.length_replicate, List.drop_of_length_le (by simp)]
    simp
  simp only [encConnect, decConnect, ones, hd]
  rw [List.take_left, List.drop_left]
  cases k <;> cases c <;> rfl

def encProvideKey (d : Bytes) : KeyStorage → Bytes
  | .fileSystem => 4 :: d
  | .tpm => 5 :: d

def decProvideKey : Bytes → Option (Bytes × KeyStorage)
  | 4 :: d => some (d, .fileSystem)
  | 5 :: d => some (d, .tpm)
  | _ => none

def encSetHmac (h : Hash) : Bytes := Verif.Toy.encType h.type ++ h.value

def decSetHmac (b : Bytes) : Option Hash := (Verif.Toy.takeType b).map fun x => ⟨x.1, x.2⟩

/-- The chain 100 is the CA's; every other chain is a certificate issued by 100, followed by that of 100. -/
@[reducible] def env : MfgEnv where
  toOwnerEnv := { OwnerServer.Toy.env with
    certs := fun (p : UInt8) => if p = 100 then [(100, 100)] else [(p.toNat, 100), (100, 100)] }
  mkChain (l : List (Nat × Nat)) := match l with
    | [] => (0 : UInt8)
    | x :: _ => UInt8.ofNat x.1
  der (q : Nat × Nat) := some [UInt8.ofNat q.1]
  keyFromDer b := match b with
    | [x] => some x.toNat
    | _ => none
  build f _ := if (show Nat from f.key) < 100 then some (f.key, 100) else none
  trim s := s
  decAppStart b := some b
  decMfgInfo b := some (some (String.ofList (Verif.Toy.bytesText (b.length / 4) b)))
  decSetHmac := decSetHmac
  decConnect := decConnect
  encAccept b := b
  decRequestKey b := decide (b = [3])
  decProvideKey := decProvideKey
  signNonce k n p := if n.length < 100 ∧ p.length < 5000 then some (n, [(k : UInt8)]) else none
  encKeyUnprot k := Verif.Toy.encBytes [(k : UInt8)]

def settings : Settings env :=
  ⟨some (100 : UInt8), some [((100 : Nat), (100 : Nat))], some ((7 : Nat), (7 : Nat)), some (some (7 : UInt8)),
    some (some (12 : UInt8)), some (some ⟨.serialNumber, .ecdsa384, [.fileSystem], (20 : UInt8), (20 : UInt8)⟩), some (), none, false⟩

def cfg : Config env :=
  ⟨((7 : Nat), (7 : Nat)), some (7 : UInt8), (100 : UInt8), (100 : UInt8), some (12 : UInt8), (), false,
    some ⟨.serialNumber, .ecdsa384, [.fileSystem], (20 : UInt8), (20 : UInt8)⟩, false⟩

theorem started : startup env settings = some cfg := rfl

theorem laws : Laws env cfg where
  codec := Verif.Toy.codecLaws
  leaf := Verif.Toy.leafLaws
  chain_certs f x h := by
    have h : (if (show Nat from f.key) < 100 then some ((show Nat from f.key), 100) else none) = some x := h
    split at h
    · rename_i hk
      generalize (show Nat from f.key) = n at h hk
      cases h
      have h1 : (UInt8.ofNat n).toNat = n := by simp; omega
      have h2 : UInt8.ofNat n ≠ 100 := by
        intro hh
        rw [hh] at h1
        have : (100 : UInt8).toNat = 100 := rfl
        omega
      change (if UInt8.ofNat n = 100 then [((100 : Nat), (100 : Nat))] else [((UInt8.ofNat n).toNat, 100), (100, 100)]) =
        (n, 100) :: (if (100 : UInt8) = 100 then [((100 : Nat), (100 : Nat))] else [((100 : UInt8).toNat, 100), (100, 100)])
      rw [if_neg h2, if_pos rfl, h1]
    · cases h
  built f k x h := by
    have h : (if (show Nat from f.key) < 100 then some ((show Nat from f.key), 100) else none) = some x := h
    split at h
    · cases h; rfl
    · cases h
  signing k _ := Verif.Toy.goodKey k
  payload o _ := Verif.Toy.smallPayload o

def encode : Resp → Bytes
  | .setCredentials hb => hb
  | .done => [2]
  | .accept t => t
  | .keyParameters _ _ => [4]
  | .diunDone _ => [5]

section
variable (B : MStore)

abbrev srv : Http.Server := server env true B cfg (List Char) some aead encode
abbrev Hs : Type := Hist env true B cfg (some : List Char → Option (List Char)) aead encode

/-- A request of the device with session `s`; the GUID drawn is `x…x`. -/
def rq (t : MsgType) (auth : Option (List Char)) (body : Bytes) (s : List Char) (x : UInt8) : Http.Request (srv B) :=
  ⟨t, true, auth, body, s, [], ⟨100 * second, some ((5 : UInt8), List.replicate 16 2), some (List.replicate 16 x),
    some [1], false, fun _ => .ok none⟩, true⟩

def key : Bytes := OwnerServer.Toy.key

def hmac (y : UInt8) : Bytes := encSetHmac ⟨.hmacSha256, List.replicate 32 y⟩

def connect : Bytes := encConnect ⟨List.replicate 16 4, .ecdh256, .a128gcm, OwnerServer.Toy.devKex.getPublic⟩

def info : Bytes := Verif.Toy.textBytes "dev".toList

/-- DIUN with device key `k`, and AppStart. -/
def begin (s : List Char) (k x : UInt8) : Hs B :=
  [.request (rq B .diunConnect none connect s x), .request (rq B .diunRequestKeyParameters (some s) [3] s x),
    .request (rq B .diunProvideKey (some s) (key ++ [4, k]) s x), .request (rq B .diAppStart (some s) (key ++ info) s x)]

/-- A whole initialization. -/
def wholeDi (s : List Char) (k x : UInt8) : Hs B :=
  begin B s k x ++ [.request (rq B .diSetHmac (some s) (key ++ hmac 6) s x)]

/-- All replies are short. -/
def shortReplies : Http.St (srv B) → Hs B → Bool
  | _, [] => true
  | σ, e :: r =>
    (match e with
      | .request rq =>
        match (Http.step σ rq).2 with
        | .ok _ b _ => decide (b.length < 5000)
        | .reject => true
      | _ => true) && shortReplies (Http.after (move B) σ e) r

/-- New sessions get new ids. -/
def freshIds : Http.St (srv B) → Hs B → Bool
  | _, [] => true
  | σ, e :: r =>
    (match e with
      | .request rq =>
        match Http.accept σ rq with
        | some a => a.cookie.isNone || (σ.sessions a.id).isNone
        | none => true
      | _ => true) && freshIds (Http.after (move B) σ e) r

theorem shortReplies_at (h1 h2 : Hs B) (rq : Http.Request (srv B)) (σ : Http.St (srv B))
    (h : shortReplies B σ (h1 ++ .request rq :: h2) = true) (t : MsgType) (b : Bytes) (tok : Option (List Char))
    (hr : (Http.step (Http.replay (move B) σ h1) rq).2 = .ok t b tok) : b.length < 5000 := by
  induction h1 generalizing σ with
  | nil =>
    simp only [List.nil_append, shortReplies, Bool.and_eq_true] at h
    have h := h.1
    simp only [Http.replay] at hr
    rw [hr] at h
    simpa using h
  | cons e r ih =>
    simp only [List.cons_append, shortReplies, Bool.and_eq_true] at h
    exact ih _ h.2 hr

theorem freshIds_at (h1 h2 : Hs B) (rq : Http.Request (srv B)) (σ : Http.St (srv B))
    (h : freshIds B σ (h1 ++ .request rq :: h2) = true) (a : Http.Accepted (srv B))
    (hr : Http.accept (Http.replay (move B) σ h1) rq = some a) (hc : a.cookie ≠ none) :
    (Http.replay (move B) σ h1).sessions a.id = none := by
  induction h1 generalizing σ with
  | nil =>
    simp only [List.nil_append, freshIds, Bool.and_eq_true] at h
    have h := h.1
    simp only [Http.replay] at hr ⊢
    rw [hr] at h
    simp only [Bool.or_eq_true, Option.isNone_iff_eq_none] at h
    exact h.resolve_left hc
  | cons e r ih =>
    simp only [List.cons_append, freshIds, Bool.and_eq_true] at h
    exact ih _ h.2 hr

theorem smallHeaders (h : Hs B) (hs : shortReplies B (Http.start B.empty) h = true) :
    SmallHeaders env true B cfg some aead encode h := by
  rintro h' i ks info der g hb ⟨t, rfl⟩ ⟨h1, rq, h2, plain, raw, tok, rfl, _, _, _, _, _, _, _, _, hr, _⟩
  have henc : ∀ p, ∃ b, Http.encryptWith aead ks rq.iv p = some b ∧ p.length ≤ b.length := by
    intro p
    cases ks with
    | none => exact ⟨p, rfl, Nat.le_refl _⟩
    | some k => exact ⟨k.sevk ++ p, rfl, by simp⟩
  obtain ⟨b, hb1, hb2⟩ := henc (encode (.setCredentials hb))
  have hresp : Http.respond (Sv := srv B) .diSetCredentials (.setCredentials hb) tok ks rq.iv = .ok .diSetCredentials b tok := by
    unfold Http.respond
    rw [if_neg (by cases ks <;> simp [Http.encOk, MsgType.encReq]), hb1]
  rw [hresp] at hr
  have := shortReplies_at B h1 (h2 ++ t) rq _ (by simpa using hs) _ _ _ hr
  simp only [encode] at hb2
  omega

theorem fresh (h : Hs B) (hs : freshIds B (Http.start B.empty) h = true) : FreshIds env true B cfg some aead encode h := by
  rintro h1 rq h2 a rfl ha hc
  exact freshIds_at B h1 h2 rq _ hs a ha hc

/-- Two devices are initialized, then maintenance runs and a voucher is fetched. -/
def after : Hs B := wholeDi B ['b'] 10 0xbb ++ [.internal (.maintain (1000 * second) [escape (guidText guid)]),
  .expire ['a'], .internal (.fetch (2000 * second) (guidText guid))]

def last : Http.Request (srv B) := rq B .diSetHmac (some ['a']) (key ++ hmac 6) ['a'] 0xaa

def all : Hs B := begin B ['a'] 9 0xaa ++ .request (last B) :: after B

/-- The conditions of the theorems. -/
def chk : Bool :=
  shortReplies B (Http.start B.empty) (all B) && freshIds B (Http.start B.empty) (all B) &&
  decide (((all B).filterMap (drawn env true B cfg some aead encode)).Nodup) &&
  decide ((Http.step (reached env true B cfg some aead encode (begin B ['a'] 9 0xaa)) (last B)).2 = .ok .diDone (key ++ [2]) none)

end

example : chk dirM = true := by decide +kernel
example : chk dbM = true := by decide +kernel

/-- What the theorems say for this history: a voucher for the device of session `a` is there at the end. -/
theorem C43_example (B : MStore) {Inv : B.W → Prop} {Has : B.W → Name → Bytes → Prop} (K : KeepStore B Inv Has)
    (hc : chk B = true) : ∃ (i : List Char) (ks : Option Http.Keys) (hm : Hash) (info : String) (der g hb b : Bytes),
      Answered env true B cfg some aead encode (begin B ['a'] 9 0xaa) (last B) i ks hm ∧
      Started env true B cfg some aead encode (begin B ['a'] 9 0xaa) i ks info der g hb ∧
      ∀ now, (B.load now (reached env true B cfg some aead encode (all B)).world (guidText g)).2 = .ok (some b) := by
  simp only [chk, Bool.and_eq_true, decide_eq_true_eq] at hc
  obtain ⟨⟨⟨h1, h2⟩, h3⟩, h4⟩ := hc
  obtain ⟨i, ks, hm, info, der, g, hb, b, r1, r2, r3, _⟩ := C43_kept K laws settings started (begin B ['a'] 9 0xaa)
    (last B) (after B) (smallHeaders B _ h1) (fresh B _ h2) h3 _ _ h4
  exact ⟨i, ks, hm, info, der, g, hb, b, r1, r2, r3⟩

example := C43_example dirM dir_keep (by decide +kernel)
example := C43_example dbM db_keep (by decide +kernel)

/-- What is stored, by the directory: the voucher has one entry, for the owner with key 12, and the chain of the
device with key 9. -/
def chkStored (B : MStore) : Bool :=
  match (B.load 0 (reached env true B cfg some aead encode (all B)).world (guidText guid)).2 with
  | .ok (some b) =>
    match deserialize (E := Verif.Toy.env) true b with
    | .ok (v, []) =>
      decide (v.header.guid = guid) && decide (v.chain = some (9 : UInt8)) && decide (v.hmac = ⟨.hmacSha256, List.replicate 32 6⟩) &&
      (match verifyAll true v with
        | .ok [p] => decide (p.publicKey = (12 : UInt8))
        | _ => false)
    | _ => false
  | _ => false

example : chkStored dirM = true := by decide +kernel
example : chkStored dbM = true := by decide +kernel

/-- Without DIUN, nothing is issued as plain DI is off; nor if the key is not sent under the session's key. -/
def chkRejected (B : MStore) : Bool :=
  decide ((Http.step (reached env true B cfg some aead encode []) (rq B .diAppStart none info ['a'] 0xaa)).2 = .reject) &&
  decide ((Http.step (reached env true B cfg some aead encode ((begin B ['a'] 9 0xaa).take 2))
    (rq B .diunProvideKey (some ['a']) [4, 9] ['a'] 0xaa)).2 = .reject)

example : chkRejected dirM = true := by decide +kernel

/-- A configuration with a manufacturer key only is refused at start-up, and would abort. -/
example : startup env { settings with owner := none } = none := rfl
example : issue env true { cfg with owner := none } exHeader ⟨.hmacSha256, List.replicate 32 6⟩ (9 : UInt8) = .panic := rfl

end Toy

end Verif.MfgServer
