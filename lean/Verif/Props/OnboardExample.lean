import Verif.Props.Onboard
import Verif.Props.DeviceExample
/-!
A concrete device and owner which meet the hypotheses of `C59_completes_partial`.
-/
namespace Verif.Device
open Verif Verif.Voucher Verif.Store Verif.Types Verif.ServiceInfo Verif.Fs Verif.Cbor.Spec

namespace Toy
open Verif.RvServer.Toy (aead guid)
open Verif.Toy (encBytes takeBytes whole_of takeBytes_enc isItem_encBytes textBytes bytesText takeHash_enc isItem_encHash)

/-! ### The codecs -/

theorem encBytes_length (b : Bytes) : (encBytes b).length = 9 + b.length := by
  simp [encBytes, Cbor.toBe_length]; omega

theorem takeAll_enc (l : List Bytes) (n : Nat) (hn : l.length ≤ n) (hl : ∀ b ∈ l, b.length < 2 ^ 63) :
    takeAll n (l.flatMap encBytes) = some l := by
  induction l generalizing n with
  | nil => cases n <;> rfl
  | cons b l ih =>
    cases n with
    | zero => simp at hn
    | succ n =>
      have h1 := takeBytes_enc (hl b (by simp)) (l.flatMap encBytes)
      rw [List.flatMap_cons]
      have hc : ∃ x y, encBytes b ++ l.flatMap encBytes = x :: y := ⟨_, _, rfl⟩
      obtain ⟨x, y, hc⟩ := hc
      rw [hc] at h1 ⊢
      simp only [takeAll, h1]
      rw [ih n (by simpa using hn) (fun b hb => hl b (by simp [hb]))]
      rfl

theorem whole_enc {b : Bytes} (h : b.length < 2 ^ 63) : Verif.Toy.whole takeBytes (encBytes b) = some b := whole_of (takeBytes_enc h [])

theorem flatMap_length (l : List Bytes) : l.length ≤ (l.flatMap encBytes).length ∧ ∀ b ∈ l, b.length ≤ (l.flatMap encBytes).length := by
  induction l with
  | nil => simp
  | cons a l ih =>
    rw [List.flatMap_cons, List.length_append, encBytes_length]
    refine ⟨by simp only [List.length_cons]; omega, ?_⟩
    intro b hb
    rcases List.mem_cons.1 hb with rfl | hb
    · omega
    · have := ih.2 b hb; omega

theorem encSi_flat (si : ServiceInfo) : encSi si = (si.flatMap fun x => [textBytes x.1, x.2]).flatMap encBytes := by
  induction si with
  | nil => rfl
  | cons x si ih => simp only [encSi, List.flatMap_cons, List.flatMap_append, List.flatMap_nil, List.append_nil] at ih ⊢; rw [ih]

theorem pairs_flat (si : ServiceInfo) : pairs (si.flatMap fun x => [textBytes x.1, x.2]) = some si := by
  induction si with
  | nil => rfl
  | cons x si ih =>
    simp only [List.flatMap_cons, List.cons_append, List.nil_append, pairs, ih, Option.map_some]
    rw [Verif.Toy.textBytes_length, Nat.mul_div_cancel_left _ (by omega), Verif.Toy.bytesText_text]

theorem decSi_enc (si : ServiceInfo) (h : (encSi si).length < 2 ^ 63) : decSi (encSi si) = some si := by
  unfold decSi
  rw [encSi_flat] at h ⊢
  obtain ⟨h1, h2⟩ := flatMap_length (si.flatMap fun x => [textBytes x.1, x.2])
  rw [takeAll_enc _ _ h1 (fun b hb => by have := h2 b hb; omega)]
  exact pairs_flat si

theorem u16_item (n : Nat) : IsItem (env.encU16 n) :=
  .int (m := 0) (by simp) (.ext2 (m := 0) (arg := [UInt8.ofNat (n / 256), UInt8.ofNat n]) (by omega) rfl)

theorem u16_dec (n : Nat) (h : n < 65536) : env.decU16 (env.encU16 n) = some n := by
  show some ((UInt8.ofNat (n / 256)).toNat * 256 + (UInt8.ofNat n).toNat) = some n
  simp only [UInt8.toNat_ofNat', Option.some.injEq]
  omega

theorem byte_item (n : UInt8) (h : n.toNat ≤ 23) : IsItem [n] := by
  have := IsItem.int (m := 0) (v := n.toNat) (by simp) (.imm (by omega) h)
  simpa using this

theorem hello_dec (g n : Bytes) (hg : g.length = 16) (hn : n.length = 16) :
    env.decHello (env.encHello ⟨g, n, .ecdh384, .a256gcm, .es384, []⟩) = some ⟨g, n, .ecdh384, .a256gcm, .es384, []⟩ := by
  have := takeAll_enc [g, n] 2 (by simp) (by simp [hg, hn])
  simp only [List.flatMap_cons, List.flatMap_nil, List.append_nil] at this
  show (match takeAll 2 (encBytes g ++ encBytes n) with
    | some [g, n] => some _
    | _ => none) = _
  rw [this]

theorem getEntry_dec (n : Nat) (h : n < 256) : env.decGetEntry (env.encGetEntry n) = some n := by
  show some (UInt8.ofNat n).toNat = some n
  simp only [UInt8.toNat_ofNat', Option.some.injEq]
  omega

theorem ovEntry_written (n : Nat) (e : Bytes) : Cbor.serialize ⟨none, [env.encU16 n, e]⟩ = .ok (encode (.ovEntry n e)) := by
  show Cbor.serialize ⟨none, [env.encU16 n, e]⟩ = .ok (0x82 :: (env.encU16 n ++ e))
  rw [show Cbor.serialize ⟨none, [env.encU16 n, e]⟩ = .ok ([0x82] ++ [env.encU16 n, e].flatten) from rfl]
  simp

theorem ownerSi_dec (m : OwnerSi) (h : (encode (.ownerSi m)).length < 2 ^ 63) : env.decOwnerSi (encode (.ownerSi m)) = some m := by
  obtain ⟨a, b, si⟩ := m
  have h : ((if a then 1 else 0) :: (if b then 1 else 0) :: encSi si : Bytes).length < 2 ^ 63 := h
  simp only [List.length_cons] at h
  show (decSi (encSi si)).map (fun si => OwnerSi.mk ((if a then (1 : UInt8) else 0) == 1) ((if b then (1 : UInt8) else 0) == 1) si) = _
  rw [decSi_enc si (by omega)]
  cases a <;> cases b <;> rfl

theorem cuph_dec (n : Bytes) (k : UInt8) (h : n.length = 16) : env.cuphNonce (env.encUnprot n k) = some (some n) := by
  show some ((Verif.Toy.whole takeBytes (encBytes (k :: n))).map (·.drop 1)) = _
  rw [whole_enc (by simp [h])]
  rfl

theorem claims_dec (n u f : Bytes) (hn : n.length = 16) (hu : u.length = 17) (hf : f.length < 2 ^ 33) :
    env.decClaims (env.encClaims n u (some f)) = some (some n, some u, some f) := by
  have := takeAll_enc [n, u, f] 3 (by simp) (by simp [hn, hu]; omega)
  simp only [List.flatMap_cons, List.flatMap_nil, List.append_nil] at this
  show (match takeAll 3 (encBytes n ++ (encBytes u ++ encBytes f)) with
    | some [n, u] => some (some n, some u, none)
    | some [n, u, f] => some (some n, some u, some f)
    | _ => none) = _
  rw [this]

theorem claims_length (n u f : Bytes) (hn : n.length = 16) (hu : u.length = 17) (hf : f.length < 2 ^ 33) :
    (env.encClaims n u (some f)).length < 2 ^ 63 := by
  show (encBytes n ++ (encBytes u ++ encBytes f)).length < _
  simp only [List.length_append, encBytes_length, hn, hu]
  omega

theorem encHash_le (x : Hash) : (Verif.Toy.encHash x).length ≤ 12 + x.value.length := by
  obtain ⟨t, v⟩ := x
  cases t <;> simp [Verif.Toy.encHash, Verif.Toy.encType, encBytes_length] <;> omega

theorem proof_length (p : OwnerServer.ProveHdr) (b : Bytes) (h1 : p.header.length < 2 ^ 32) (h2 : p.hmac.value.length ≤ 64)
    (h3 : p.nonce5.length = 16) (h4 : p.kexA.length < 2 ^ 32) (h5 : p.helloHash.value.length ≤ 64)
    (h : OwnerServer.encProveHdr env.toOwnerEnv p = .ok b) : b.length < 2 ^ 63 := by
  rw [show OwnerServer.encProveHdr env.toOwnerEnv p = .ok ([0x88] ++ [encBytes p.header, env.encU16 p.num, Verif.Toy.encHash p.hmac,
    encBytes p.nonce5, encSig p.sig, encBytes p.kexA, Verif.Toy.encHash p.helloHash, env.encU16 17].flatten) from rfl] at h
  have e := Res.ok.inj h
  rw [← e]
  have k1 := encHash_le p.hmac
  have k2 := encHash_le p.helloHash
  have k3 : (encSig p.sig).length = 1 := by cases p.sig <;> rfl
  simp only [List.length_append, List.flatten_cons, List.flatten_nil, List.length_cons, List.length_nil, encBytes_length, k3]
  omega

theorem small_dec (n : Bytes) (h : n.length = 16) : Verif.Toy.whole takeBytes (encBytes n) = some n := whole_enc (by omega)
theorem small_item (n : Bytes) (h : n.length = 16) : IsItem (encBytes n) := isItem_encBytes (by omega)
theorem prove_dec (n : Bytes) (h : n.length < 2 ^ 32) : Verif.Toy.whole takeBytes (encBytes n) = some n := whole_enc (by omega)
theorem prove_length (b : Bytes) (h : b.length < 2 ^ 32) : (encBytes b).length < 2 ^ 33 := by rw [encBytes_length]; omega
theorem deviceSi_dec (si : ServiceInfo) (h : (encSi si).length ≤ 16384) : decSi (encSi si) = some si := decSi_enc si (by omega)
theorem hash_dec (h : Hash) (hl : h.value.length ≤ 64) : Verif.Toy.whole Verif.Toy.takeHash (Verif.Toy.encHash h) = some h :=
  whole_of (takeHash_enc (by omega) [])
theorem hash_item (h : Hash) (hl : h.value.length ≤ 64) : IsItem (Verif.Toy.encHash h) := isItem_encHash (by omega)
theorem cuph_item (n : Bytes) (k : UInt8) (h : n.length = 16) : IsItem (encBytes (k :: n)) := isItem_encBytes (by simp [h])

set_option maxHeartbeats 2000000 in
theorem wire : Wire env encode where
  hello := hello_dec
  getEntry := getEntry_dec
  ready := by decide
  deviceSi := deviceSi_dec
  done := small_dec
  proveOvHdr _ := rfl
  ovEntry n e _ := ovEntry_written n e
  setupDevice _ := rfl
  ownerReady := rfl
  ownerSi := ownerSi_dec
  lastSi := rfl
  done2 := small_dec
  u16 n h := ⟨u16_dec n h, u16_item n⟩
  nonce n h := ⟨small_dec n h, small_item n h⟩
  sig := ⟨rfl, byte_item 2 (by decide)⟩
  hash h hl := ⟨hash_dec h hl, hash_item h hl⟩
  cuph n k h := ⟨cuph_dec n k h, cuph_item n k h⟩
  euph n h := ⟨congrArg some (small_dec n h), small_item n h⟩
  prove b h := ⟨prove_dec b h, prove_length b h⟩
  claims n u b hn hu hb := ⟨claims_dec n u _ hn hu (prove_length b hb), claims_length n u _ hn hu (prove_length b hb)⟩
  proof := proof_length

theorem digests : Digests env where
  plain t d _ := Verif.Toy.digest_length t d
  hmac t s d := List.length_replicate ..
  tpm _ _ _ _ _ h := by cases h

theorem agree : Agree toyKex where
  comm := toyKex_laws.ec_comm
  size := toyKex_laws.ec_len
  shared _ _ _ := rfl
  kdf n l i k len := ⟨_, rfl, by simp⟩

theorem secures : Secures aead where
  opens := by
    intro k iv p b h
    cases h
    change (if k.isPrefixOf (k ++ p) then some ((k ++ p).drop k.length) else none) = some p
    rw [if_pos (by simp), List.drop_left]
  total _ _ _ _ := rfl
  grows k iv p b h := by cases h; simp

theorem signs (k : UInt8) (u : Bytes) : Signs env.E k k u := by
  intro payload _
  exact ⟨[], [k], rfl, by simp, by simp, rfl, by show ([k] == [k]) = true; simp⟩

theorem ownerKeys : OwnerKeys env cfg where
  proves n _ := signs _ _
  setsUp := signs _ _
  size g n hg hn := by
    show (g ++ n ++ [(13 : UInt8)]).length < _
    simp [hg, hn]

/-! ### The voucher -/

/-- The payloads of a chain of entries, if it is one. -/
def chain (info : Bytes) : UInt8 → Bytes → List Bytes → Option (List (Payload sized))
  | _, _, [] => some []
  | key, prev, raw :: raws =>
    match parseSign1 sized true raw with
    | .ok s =>
      match sized.decPayload s.payload with
      | some p =>
        if sized.verify key s.prot s.payload s.sig ∧ p.hashPrev.type.isPlain ∧ p.hashPrev.value = Verif.Toy.digest p.hashPrev.type prev ∧
            p.hashHdrInfo.type.isPlain ∧ p.hashHdrInfo.value = Verif.Toy.digest p.hashHdrInfo.type info then
          (chain info p.publicKey raw raws).map (p :: ·)
        else none
      | none => none
    | _ => none

theorem chain_sound (info : Bytes) (key : UInt8) (prev : Bytes) (raws : List Bytes) (ps : List (Payload sized))
    (h : chain info key prev raws = some ps) : SignChain sized true info key prev raws ps := by
  induction raws generalizing key prev ps with
  | nil => cases h; exact .nil
  | cons raw raws ih =>
    simp only [chain] at h
    split at h
    · rename_i s hs
      split at h
      · rename_i p hp
        split at h
        · rename_i hc
          obtain ⟨c1, c2, c3, c4, c5⟩ := hc
          cases hr : chain info p.publicKey raw raws with
          | none => rw [hr] at h; cases h
          | some ps' =>
            rw [hr] at h
            cases h
            exact .cons hs c1 hp ⟨c2, c3⟩ ⟨c4, c5⟩ (ih _ _ _ hr)
        · cases h
      · cases h
    · cases h

/-- Whether an entry is in shortest form. -/
def shortest (e : Bytes) : Bool :=
  match parseSign1 sized true e with
  | .ok s => decide (s.prot.length < 2 ^ 63 ∧ s.payload.length < 2 ^ 63 ∧ s.sig.length < 2 ^ 63 ∧
      e = [0xd2, 0x84] ++ [encBytes s.prot, emptyMap, encBytes s.payload, encBytes s.sig].flatten)
  | _ => false

theorem shortest_sound (e : Bytes) (h : shortest e = true) :
    ∃ l : List Bytes, l.length = 4 ∧ (∀ i ∈ l, IsItem i) ∧ e = [0xd2, 0x84] ++ l.flatten := by
  unfold shortest at h
  split at h
  · obtain ⟨h1, h2, h3, h4⟩ := of_decide_eq_true h
    refine ⟨_, rfl, ?_, h4⟩
    intro i hi
    simp only [List.mem_cons, List.not_mem_nil, or_false] at hi
    rcases hi with rfl | rfl | rfl | rfl
    · exact isItem_encBytes h1
    · exact .map (v := 0) (h := [UInt8.ofNat (32 * 5 + 0)]) (items := []) (.imm (by omega) (by omega)) (by omega) rfl (by simp)
    · exact isItem_encBytes h2
    · exact isItem_encBytes h3
  · cases h

/-- Whether the voucher is the one of the device 9 with the credential `cred` and the owner 12. -/
def fits (v : Voucher sized) : Bool :=
  (match OwnerServer.headerRaw env.toOwnerEnv v with
  | .ok hdr =>
    match Header.deserialize sized true hdr with
    | .ok hh =>
      match hh.contents.contents[4]?, chain (hh.guid ++ hh.deviceInfo.toUTF8.toList) hh.mfgKey (hdr ++ sized.encHash v.hmac) v.entries.contents with
      | some key, some ps => decide (hdr.length < 2 ^ 32) && decide (v.hmac.value = List.replicate v.hmac.type.digestSize 2) &&
          decide (cred.keyHash.type.isPlain = true ∧ cred.keyHash.value = Verif.Toy.digest cred.keyHash.type key) &&
          decide ((lastOwner hh.mfgKey ps : UInt8) = 12)
      | _, _ => false
    | _ => false
  | _ => false) && decide (v.entries.contents.length ≠ 0) && decide (v.entries.contents.length ≤ 255) &&
    v.entries.contents.all shortest && decide ((OwnerServer.voucherKey env.toOwnerEnv v : Option UInt8) = some 9)

theorem fits_sound (v : Voucher sized) (h : fits v = true) : VoucherFor env true cred (9 : UInt8) (12 : UInt8) v := by
  unfold fits at h
  simp only [Bool.and_eq_true, decide_eq_true_eq] at h
  obtain ⟨⟨⟨⟨h1, h2⟩, h3⟩, h4⟩, h5⟩ := h
  refine ⟨?_, by intro e; rw [e] at h2; exact h2 rfl, h3, fun e he => shortest_sound e (List.all_eq_true.1 h4 e he), h5⟩
  split at h1
  · rename_i hdr e1
    split at h1
    · rename_i hh e2
      split at h1
      · rename_i key ps e3 e4
        simp only [Bool.and_eq_true, decide_eq_true_eq] at h1
        obtain ⟨⟨⟨k1, k2⟩, k3⟩, k4⟩ := h1
        exact ⟨hdr, hh, key, ps, e1, k1, e2, k2, e3, k3, chain_sound _ _ _ _ _ e4, k4⟩
      · cases h1
    · cases h1
  · cases h1

theorem voucher_fits : (match voucher with | some v => fits v | none => false) = true := by decide +kernel

/-! ### The run -/

/-- A store holding the voucher; it remembers for whom onboarding was recorded. -/
abbrev M1 : OwnerServer.VStore (Voucher sized) where
  W := List Name
  empty := []
  load _ w _ := (w, match voucher with | some v => .ok (some v) | none => .ok none)
  put w _ _ := (w, .ok ())
  setTo2 _ w k := (k :: w, .ok ())
  setWait _ w _ _ := (w, .ok ())
  maintain _ _ w := w
  pending _ _ _ := .ok []
  ending _ _ := .ok []
  windowCheck := false

abbrev srv1 : Http.Server := OwnerServer.server env.toOwnerEnv true (M1 : OwnerServer.VStore (Voucher env.E)) cfg (List Char) some aead encode

def arrives (q : Http.Sent) : Http.Request srv1 :=
  ⟨q.type, true, q.auth, q.body, ['s'], [], ⟨100, some (List.replicate 16 6), some ((5 : UInt8), List.replicate 48 2),
    some (List.replicate 16 0xbb), false, fun _ => some ⟨none, none, some true⟩⟩, true⟩

/-- The operating system of the device; files contain the credential. -/
def answers : (e : Op) → Op.Ans env e
  | .connect _ => ()
  | .nonce => some (List.replicate 16 4)
  | .kex => some ((3 : UInt8), List.replicate 48 1)
  | .uuid => [1]
  | .sign p => sized.sign (9 : UInt8) p
  | .host _ op => SiClient.Toy.answer (some 0) (fun _ => true) op
  | .fs (.create _) => true
  | .fs (.append _ _) => true
  | .fs (.read _) => some [1]
  | .fs (.exists? _) => true
  | .fs (.rename _ _) => true
  | .fs (.remove _) => true
  | .sleep _ => ()
  | .reencrypt => true
  | .reboot => some true

def W1 : Http.Around srv1 (ops env) Unit := ⟨fun _ q => arrives q, fun _ => .good, fun _ => [], fun _ e => ((), answers e), fun _ => false⟩

/-- The redirect blob. -/
def blob : Sign1 :=
  match parseSign1 sized true (redirect 12) with
  | .ok s => s
  | _ => ⟨[], [], [], []⟩

abbrev onboarding : Step env Bool := to2 true aead place SiClient.Toy.host loc cred blob .new
def begin1 : Http.Now srv1 Empty Unit := ⟨0, [], ⟨fun _ => none, []⟩, ()⟩
def trace1 : Trace (sig env) := Prog.doings (Http.answer W1) begin1 onboarding
def end1 : Http.Now srv1 Empty Unit × Res (Http.Client × DevErr) Bool := Prog.exec (Http.answer W1) begin1 onboarding

def small (d : (sig env).Deed) : Bool :=
  match d with
  | ⟨.net q, some _⟩ => decide (q.body.length ≤ 16384)
  | ⟨.net _, none⟩ => false
  | _ => true

theorem all_small : trace1.all small = true := by decide +kernel

theorem delivered : Delivered env trace1 := by
  intro q o h
  have := List.all_eq_true.1 all_small _ h
  cases o with
  | none => cases this
  | some r => exact ⟨⟨r, rfl⟩, of_decide_eq_true this⟩

theorem answered1 (e : Op) (a : Op.Ans env e) (h : (⟨.app e, a⟩ : (sig env).Deed) ∈ trace1) : a = answers e := by
  obtain ⟨_, h⟩ := Http.run_answers W1 _ _ e a h
  exact h

theorem fortunate : Fortunate env (9 : UInt8) trace1 where
  nonce o h := ⟨_, answered1 _ _ h, by simp⟩
  kex o h := ⟨_, _, answered1 _ _ h, by simp⟩
  sign pl o h := ⟨_, _, answered1 _ _ h, by simp, by simp, (by decide : ([9] == [(9 : UInt8)]) = true), fun _ _ => rfl⟩
  create p b h := answered1 _ _ h
  append p x b h := answered1 _ _ h
  remove p b h := answered1 _ _ h
  read p o h := ⟨_, cred, answered1 _ _ h, rfl⟩
  os m o h := ⟨_, answered1 _ _ h⟩

/-- Values which the codecs of the example can carry. -/
def leaf : Val → Bool
  | .bool _ => true
  | .text s => decide (s.length < 1000)
  | .int n => decide (0 ≤ n ∧ n < 256)
  | _ => false

theorem leaf_dec (v : Val) (h : leaf v = true) : decLeaf (encLeaf v) = some v := by
  cases v with
  | bool b => cases b <;> rfl
  | text s =>
    show some (Val.text (bytesText ((textBytes s).length / 4) (textBytes s))) = _
    rw [Verif.Toy.textBytes_length, Nat.mul_div_cancel_left _ (by omega), Verif.Toy.bytesText_text]
  | int n =>
    show some (Val.int ((UInt8.ofNat n.toNat).toNat : Int)) = _
    obtain ⟨h1, h2⟩ := of_decide_eq_true h
    simp only [UInt8.toNat_ofNat', Option.some.injEq, Val.int.injEq]
    omega
  | _ => cases h

theorem leaf_val (v : Val) (h : leaf v = true) : decVal (encVal v) = some v := by
  have := leaf_dec v h
  cases v with
  | bool b => cases b <;> rfl
  | text s => exact this
  | int n => exact this
  | _ => cases h

theorem leaf_length (v : Val) (h : leaf v = true) : (encLeaf v).length < 2 ^ 63 := by
  cases v with
  | bool b => simp [encLeaf]
  | text s =>
    have h : s.length < 1000 := of_decide_eq_true h
    simp only [encLeaf, List.length_cons, Verif.Toy.textBytes_length]
    omega
  | int n => simp [encLeaf]
  | _ => cases h

theorem array_val (l : List Val) (h : ∀ v ∈ l, leaf v = true) : decVal (encVal (.array l)) = some (.array l) := by
  show (((takeAll _ (l.flatMap fun v => encBytes (encLeaf v))).bind fun l => l.mapM decLeaf).map Val.array) = _
  have e : (l.flatMap fun v => encBytes (encLeaf v)) = (l.map encLeaf).flatMap encBytes := by
    rw [List.flatMap_map]
  rw [e]
  rw [takeAll_enc _ _ (flatMap_length _).1 (by
    intro b hb
    obtain ⟨v, hv, rfl⟩ := List.mem_map.1 hb
    exact leaf_length v (h v hv))]
  have k : (l.map encLeaf).mapM decLeaf = some l := by
    clear e
    induction l with
    | nil => rfl
    | cons v l ih =>
      rw [List.map_cons, List.mapM_cons, leaf_dec v (h v (by simp)), ih (fun v hv => h v (by simp [hv]))]
      rfl
  show (((l.map encLeaf).mapM decLeaf).map Val.array) = _
  rw [k]
  rfl

theorem announces : Announces env SiClient.Toy.host trace1 := by
  intro sub clevis v h x hx
  have hv : v = "toy".toList := by
    have h : some (some v) = (some (some "toy".toList) : Option (Option (List Char))) := answered1 _ _ h
    exact Option.some.inj (Option.some.inj h)
  subst hv
  have key : (SiClient.devmod SiClient.Toy.host "toy".toList (announced sub clevis)).all (fun x => leaf x.2.2 ||
      match x.2.2 with | .array l => l.all leaf | _ => false) = true := by
    cases sub <;> cases clevis <;> decide +kernel
  have hx := List.all_eq_true.1 key x hx
  rcases Bool.or_eq_true _ _ |>.mp hx with hx | hx
  · exact leaf_val _ hx
  · split at hx
    · rename_i l hl
      rw [hl]
      exact array_val l (List.all_eq_true.1 hx)
    · cases hx

theorem honest (v : Voucher sized) (hv : voucher = some v) :
    Honest env true aead encode cfg cred (9 : UInt8) v blob SiClient.Toy.host trace1 where
  codec := codecLaws
  wire := wire
  digests := digests
  agree := agree
  secures := secures
  keys := ownerKeys
  guid := by decide +kernel
  voucher := fits_sound v (by have := voucher_fits; rw [hv] at this; exact this)
  redirect := by decide +kernel
  fortunate := fortunate
  announces := announces

theorem instructs (sub clevis : Bool) : ∃ l, Instructs env encode (fun _ => some ⟨none, none, some true⟩) cred.guid sub clevis l ∧
    Follows SiClient.Toy.host trace1 l := by
  refine ⟨rebootItems true, ⟨_, rfl, rfl, ?_, ?_, by decide +kernel⟩, ?_⟩
  · intro x hx
    simp only [rebootItems, List.mem_cons, List.not_mem_nil, or_false] at hx
    rcases hx with rfl | rfl <;> exact leaf_val (.bool true) rfl
  · intro x hx
    simp only [rebootItems, List.mem_cons, List.not_mem_nil, or_false] at hx
    rcases hx with rfl | rfl <;> exact plain_of_known nofun
  · intro u res h _
    have e : SiClient.process SiClient.Toy.host (rebootItems true) = .ret (.ok (true, [])) := rfl
    rw [e] at h
    obtain ⟨-, rfl⟩ := Prog.ends_ret h
    exact ⟨_, rfl⟩

theorem held (v : Voucher sized) (hv : voucher = some v) (now : Nat) (w : M1.W) (k : Name) : (M1.load now w k).2 = .ok (some v) := by
  simp only [hv]

/-- The hypotheses of `C59_completes_partial` are met: the device with a voucher with two entries, whose owner asks it to reboot. -/
example : ∃ (v : Voucher sized) (hist : List (Http.Event srv1 Empty)) (r : Res (Http.Client × DevErr) Bool),
    Honest env true aead encode cfg cred (9 : UInt8) v blob SiClient.Toy.host trace1 ∧ Delivered env trace1 ∧
    Http.Talk (Sv := srv1) (X := ops env) (fun m _ => m.elim) ⟨fun _ => none, []⟩ (fun _ => false) none [] hist trace1 ∧
    (∀ h1 rq h2, hist = h1 ++ .request rq :: h2 → Serves (c := true) (B := (M1 : OwnerServer.VStore (Voucher env.E))) (cfg := cfg)
      (idOf := some) (A := aead) (encode := encode) (fun _ => false) false cred.guid v SiClient.Toy.host trace1
      (Http.replay (Sv := srv1) (fun m _ => m.elim) ⟨fun _ => none, []⟩ h1) rq) ∧
    Prog.Ends onboarding trace1 r ∧ trace1.any (sends .to2Done) = true := by
  cases hv : voucher with
  | none => have := voucher_fits; rw [hv] at this; cases this
  | some v =>
    obtain ⟨hist, h1, h2⟩ := Http.talk_run (M := Empty) (fun m _ => m.elim) ⟨fun _ => none, []⟩ W1 (fun _ q => ⟨rfl, rfl, rfl, rfl, (by decide : ' ' ∉ ['s'])⟩) onboarding begin1 rfl none
    refine ⟨v, hist, end1.2, honest v hv, delivered, h2, ?_, Prog.exec_ends _ _ _, by decide +kernel⟩
    intro g1 rq g2 e
    have hm : Http.Event.request rq ∈ (Prog.exec (Http.answer W1) begin1 onboarding).1.past := by
      rw [h1, e]; simp
    rcases Http.run_requests W1 _ _ _ hm with hm | ⟨n, q, rfl⟩
    · cases hm
    · refine ⟨rfl, rfl, ⟨_, rfl, by simp⟩, ⟨_, _, rfl, by simp⟩, ⟨_, rfl, by simp⟩, rfl, rfl, ?_, rfl, instructs⟩
      exact held v hv _ _ _

end Toy
end Verif.Device
