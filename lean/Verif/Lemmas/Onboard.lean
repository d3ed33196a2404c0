import Verif.Spec.Onboard
import Verif.Lemmas.Forward
import Verif.Props.OwnerEntries
import Verif.Props.Device
import Verif.Props.DeviceSi
import Verif.Props.SiPipeline
/-!
The messages of TO2 between an honest device and an honest owner: each is read by the other side and passes its checks.
-/
namespace Verif.Device
open Verif Verif.Voucher Verif.Store Verif.Types Verif.ServiceInfo Verif.Cbor.Spec
open Verif.OwnerServer (shortest isSign1_shortest sign1_reads serialize_sign1)
variable {R : DevEnv} {c : Bool} {A : Http.Aead} {encode : OwnerServer.Resp → Bytes}

/-! ### Signed messages -/

theorem emptyMap_item : IsItem emptyMap :=
  .map (v := 0) (h := [0xa0]) (items := []) (.imm (m := 5) (v := 0) (by omega) (by omega)) (by omega) rfl (by simp)

theorem signed_reads (C : CodecLaws R.E) {prot unprot pl s : Bytes} (hu : IsItem unprot) (h1 : prot.length < 2 ^ 63)
    (h2 : pl.length < 2 ^ 63) (h3 : s.length < 2 ^ 63) (hc : R.E.coseOk prot unprot = true) :
    Cbor.serialize ⟨some 18, [R.E.encBytes prot, unprot, R.E.encBytes pl, R.E.encBytes s]⟩ =
      .ok (shortest [R.E.encBytes prot, unprot, R.E.encBytes pl, R.E.encBytes s]) ∧
    parseSign1 R.E c (shortest [R.E.encBytes prot, unprot, R.E.encBytes pl, R.E.encBytes s]) = .ok ⟨prot, unprot, pl, s⟩ := by
  refine ⟨serialize_sign1 rfl, ?_⟩
  unfold parseSign1
  rw [sign1_reads (isSign1_shortest rfl ?_)]
  · simp only [liftP, Res.bind_ok, ne_eq, not_true, if_false, getLeaf, getRaw, List.getElem?_cons_zero, List.getElem?_cons_succ, C.bytes_dec _ h1, C.bytes_dec _ h2, C.bytes_dec _ h3, ofOpt, hc,
      if_true]
    rfl
  · intro i hi
    simp only [List.mem_cons, List.not_mem_nil, or_false] at hi
    rcases hi with rfl | rfl | rfl | rfl
    · exact C.bytes_item _ h1
    · exact hu
    · exact C.bytes_item _ h2
    · exact C.bytes_item _ h3

/-! ### The owner's proof -/

theorem maxMessageSize_eq : OwnerServer.maxMessageSize = 17 := by decide

theorem proveHdr_reads (C : CodecLaws R.E) (W : Wire R encode) {p : OwnerServer.ProveHdr} (h1 : p.header.length < 2 ^ 32)
    (h2 : p.num < 65536) (h3 : p.hmac.value.length ≤ 64) (h4 : p.nonce5.length = 16) (h5 : p.sig = .es384)
    (h6 : p.kexA.length < 2 ^ 32) (h7 : p.helloHash.value.length ≤ 64) :
    ∃ b, OwnerServer.encProveHdr R.toOwnerEnv p = .ok b ∧ b.length < 2 ^ 63 ∧ parseProveHdr R c b = .ok (p, []) := by
  have hm : OwnerServer.maxMessageSize < 65536 := by rw [maxMessageSize_eq]; omega
  have l1 : p.header.length < 2 ^ 63 := by omega
  have l2 : p.kexA.length < 2 ^ 63 := by omega
  obtain ⟨b, hb, hr⟩ := roundtrip (c := c) (some 8) ⟨none, [R.E.encBytes p.header, R.encU16 p.num, R.E.encHash p.hmac,
    R.encNonce p.nonce5, R.encSig p.sig, R.E.encBytes p.kexA, R.E.encHash p.helloHash, R.encU16 OwnerServer.maxMessageSize]⟩ []
    (by
      intro i hi
      simp only [List.mem_cons, List.not_mem_nil, or_false] at hi
      rcases hi with rfl | rfl | rfl | rfl | rfl | rfl | rfl | rfl
      · exact C.bytes_item _ l1
      · exact (W.u16 _ h2).2
      · exact (W.hash _ h3).2
      · exact (W.nonce _ h4).2
      · rw [h5]; exact W.sig.2
      · exact C.bytes_item _ l2
      · exact (W.hash _ h7).2
      · exact (W.u16 _ hm).2) (by simp) nofun (.inr ⟨rfl, by simp⟩)
  have he : OwnerServer.encProveHdr R.toOwnerEnv p = .ok b := by
    unfold OwnerServer.encProveHdr
    rw [hb]
    rfl
  refine ⟨b, he, W.proof p b h1 h3 h4 h6 h7 he, ?_⟩
  rw [List.append_nil] at hr
  unfold parseProveHdr
  rw [hr]
  have hs : R.decSigInfo (R.encSig p.sig) = some (p.sig, []) := by rw [h5]; exact W.sig.1
  simp only [liftP, Res.bind_ok, getLeaf, List.getElem?_cons_zero, List.getElem?_cons_succ, C.bytes_dec _ l1, C.bytes_dec _ l2,
    (W.u16 _ h2).1, (W.hash _ h3).1, (W.nonce _ h4).1, hs, (W.hash _ h7).1, (W.u16 _ hm).1]
  rfl

theorem digestSize_le (t : HashType) : t.digestSize ≤ 64 := by cases t <;> decide

theorem compare_same {a b : Hash} (h : a.value = b.value) : a.compare b = .ok () := by
  unfold Hash.compare memcmpEq
  rw [h]
  simp

theorem madeWith_size (D : Digests R) {k : Credential.KeyStorage} {d : Bytes} {x : Hash} (h : MadeWith R.H k d x) :
    x.value.length ≤ 64 := by
  cases k with
  | plain s p =>
    have h : x.value = R.H.hmac x.type s d := h
    rw [h, D.hmac]
    exact digestSize_le _
  | tpm a b pub priv =>
    obtain ⟨long, h⟩ := h
    rw [D.tpm _ _ _ _ _ h]
    split <;> omega

theorem verifies_hmac (D : Digests R) {cr : Credential.Cred} {d : Bytes} {x : Hash} (h : MadeWith R.H cr.keys d x) :
    cr.verifyHmac R.H d x = .ok () := by
  unfold Credential.Cred.verifyHmac Credential.KeyStorage.performHmac
  cases hk : cr.keys with
  | plain s p =>
    rw [hk] at h
    have h : x.value = R.H.hmac x.type s d := h
    simp only [Hash.fromDigest, D.hmac, ne_eq, not_true, if_false, Res.bind_ok]
    exact compare_same h
  | tpm a b pub priv =>
    rw [hk] at h
    obtain ⟨long, h⟩ := h
    have hl := D.tpm _ _ _ _ _ h
    simp only [h, Hash.fromDigest]
    have : x.value.length = (if long = true then HashType.sha384 else HashType.sha256).digestSize := by
      rw [hl]; cases long <;> rfl
    rw [if_neg (by rw [this]; simp), Res.bind_ok]
    exact compare_same rfl

theorem checkHello_good (D : Digests R) {cr : Credential.Cred} {n5 : Bytes} {s : Sign1} {p : OwnerServer.ProveHdr} {hh : Header R.E}
    {key : Bytes} (hp : parseProveHdr R c s.payload = .ok (p, [])) (hn : p.nonce5 = n5) (hs : p.sig = .es384)
    (hm : MadeWith R.H cr.keys p.header p.hmac) (hd : Header.deserialize R.E c p.header = .ok hh)
    (hk : hh.contents.contents[4]? = some key) (hc : Commits R.E cr.keyHash key) :
    checkHello (R := R) c cr n5 s = .ok p := by
  unfold checkHello
  rw [hp]
  simp only [liftD, Res.bind_ok]
  rw [if_neg (by simp [hn]), if_neg (by simp [hs]), verifies_hmac D hm, hd]
  simp only [Res.bind_ok, keyHash, getRaw, hk, Env.hashData, hc.1, if_true]
  rw [compare_same (show cr.keyHash.value = _ from hc.2)]
  rfl

/-! ### The voucher's owner -/

theorem ownerOf_chain {E : Env} {v : Voucher E} {info hdr : Bytes} (hi : v.header.infoBytes E = .ok info)
    (hh : hdrBytes v = .ok hdr) {ps : List (Payload E)}
    (h : SignChain E c info v.header.mfgKey hdr v.entries.contents ps) (hne : ps ≠ []) :
    RvServer.ownerOf c v = .ok (lastOwner v.header.mfgKey ps) := by
  have hrun := polls_run hi v.entries.contents [] 0 v.header.mfgKey hdr ps 2 h (by simp [prevBytes, hh]) (by simp)
  unfold RvServer.ownerOf RvServer.iterLast
  rw [show iterStart v = ⟨0, false, v.header.mfgKey⟩ from rfl, hrun, RvServer.takeWhile_items]
  have hdone : polls c v 2 ⟨0 + v.entries.contents.length, false, lastOwner v.header.mfgKey ps⟩ = [.done, .done] := by
    rw [Nat.zero_add]
    simp [polls, next]
  rw [hdone]
  simp only [List.takeWhile_cons, RvServer.isDone, Bool.not_true, Bool.false_eq_true, if_false, List.append_nil, List.getLast?_map]
  cases hl : ps.getLast? with
  | none => exact absurd (List.getLast?_eq_none_iff.1 hl) hne
  | some p =>
    rw [RvServer.lastOwner_getLast _ _ _ hl]
    rfl

theorem checkOwner_good (C : CodecLaws R.E) {s to1d : Sign1} {p : OwnerServer.ProveHdr} {es : List Bytes} {hh : Header R.E}
    {ps : List (Payload R.E)} (hs : p.header.length < 2 ^ 63) (hp : parseProveHdr R c s.payload = .ok (p, []))
    (hd : Header.deserialize R.E c p.header = .ok hh) (hlen : es.length ≤ 65535)
    (hch : SignChain R.E c (hh.guid ++ hh.deviceInfo.toUTF8.toList) hh.mfgKey (p.header ++ R.E.encHash p.hmac) es ps) (hne : ps ≠ [])
    (h1 : R.E.verify (lastOwner hh.mfgKey ps) s.prot s.payload s.sig = true)
    (h2 : R.E.verify (lastOwner hh.mfgKey ps) to1d.prot to1d.payload to1d.sig = true) :
    checkOwner (R := R) c s to1d p es = .ok p := by
  obtain ⟨ah, hae, hah⟩ := Cbor.isHead_encode (m := 4) (by omega) hlen
  have heb : liftP (Cbor.serialize ⟨none, es⟩) = .ok ([] ++ ah ++ es.flatten) := by
    simp only [Cbor.serialize]
    rw [show (pure [] : Res Cbor.ParseErr Bytes) = .ok [] from rfl, Res.bind_ok, hae]
    rfl
  have hh' : hdrBytes (E := R.E) { contents := ⟨none, [R.E.encVersion 101, R.E.encBytes p.header, R.E.encHash p.hmac,
           R.E.encChainOpt none, [] ++ ah ++ es.flatten]⟩, version := 101, header := hh, hmac := p.hmac, chain := none, entries := ⟨none, es⟩ } =
      .ok (p.header ++ R.E.encHash p.hmac) := by
    simp only [hdrBytes, getLeaf, getRaw, List.getElem?_cons_succ, List.getElem?_cons_zero, C.bytes_dec _ hs]
    rfl
  have ho := ownerOf_chain (c := c) (header_info hd) hh' hch hne
  unfold checkOwner Voucher.fromParts
  rw [heb, hd]
  simp only [liftD, Res.bind_ok]
  rw [show ∀ x : Voucher R.E, (pure x : Res Err (Voucher R.E)) = .ok x from fun _ => rfl]
  simp only [liftD, Res.bind_ok]
  rw [ho]
  simp only [liftD, Res.bind_ok, h1, h2, hp]
  rfl

/-! ### Entries -/

theorem decEntry_good (W : Wire R encode) {n : Nat} {l : List Bytes} {x : Sign1} (hn : n < 256) (h4 : l.length = 4)
    (hi : ∀ i ∈ l, IsItem i) (hp : parseSign1 R.E c (shortest l) = .ok x) :
    decEntry R c (encode (.ovEntry n (shortest l))) = some (n, shortest l) := by
  have hitem : IsItem (shortest l) :=
    .tag (v := 18) (h := [0xd2]) (body := [0x84] ++ l.flatten) (.imm (m := 6) (v := 18) (by omega) (by omega))
      (.array (v := 4) (h := [0x84]) (.imm (m := 4) (v := 4) (by omega) (by omega)) h4 hi)
  obtain ⟨b, hb, hr⟩ := roundtrip (c := c) (some 2) ⟨none, [R.encU16 n, shortest l]⟩ [] (by
      intro i hi
      simp only [List.mem_cons, List.not_mem_nil, or_false] at hi
      rcases hi with rfl | rfl
      · exact (W.u16 _ (by omega)).2
      · exact hitem) (by simp) nofun (.inr ⟨rfl, by simp⟩)
  have he := W.ovEntry n (shortest l) hn
  rw [hb] at he
  cases he
  rw [List.append_nil] at hr
  unfold decEntry
  rw [hr]
  simp only [liftP, Res.bind_ok, getLeaf, getRaw, List.getElem?_cons_zero, List.getElem?_cons_succ, (W.u16 n (by omega)).1, ofOpt, hp,
    sign1_reads (isSign1_shortest h4 hi), serialize_sign1 h4]
  rfl

/-! ### Keys -/

theorem getPublic_size (K : Agree R.K) {k : R.K.Key} {r : Bytes} (h : r.length = 48) :
    (OwnerServer.newKex .ecdh384 k r : KeyExchange R.K).getPublic.length < 2 ^ 32 := by
  have := K.size .ecdh384 k
  simp only [OwnerServer.newKex, KexSuite.isEcdh, if_true, KeyExchange.getPublic, encodeEcdh, be16, List.length_append, Cbor.toBe_length]
  omega

theorem derives (K : Agree R.K) {k k' : R.K.Key} {r r' : Bytes} (h : r.length = 48) (h' : r'.length = 48) (flag : Bool) :
    ∃ key, (OwnerServer.newKex .ecdh384 k r : KeyExchange R.K).deriveKey .device .a256gcm flag (OwnerServer.newKex .ecdh384 k' r').getPublic = .ok key ∧
      (OwnerServer.newKex .ecdh384 k' r' : KeyExchange R.K).deriveKey .owner .a256gcm flag (OwnerServer.newKex .ecdh384 k r).getPublic = .ok key ∧
      key.length = 32 := by
  have hd : ∀ (a b : R.K.Key) (x y : Bytes) (s : Side), y.length = 48 →
      deriveEcdh (K := R.K) .ecdh384 a x s ((KeyExchange.ecdh .ecdh384 b y : KeyExchange R.K).getPublic) =
      match R.K.ecShared .ecdh384 a (R.K.ecPublic .ecdh384 b) with
      | none => .err .crypto
      | some dx => .ok (match s with
        | .device => dx ++ (x ++ y)
        | .owner => dx ++ (y ++ x)) := by
    intro a b x y s hy
    have hl := K.size .ecdh384 b
    unfold deriveEcdh KeyExchange.getPublic
    rw [(C16_ecdh_partial _ _ _ _).1.2 ⟨rfl, hl.1, hl.2, by omega⟩, Res.bind_ok]
    simp only [hy, KexSuite.randomSize, ne_eq, not_true, if_false]
    cases R.K.ecShared .ecdh384 a (R.K.ecPublic .ecdh384 b) with
    | none => rfl
    | some dx => rfl
  obtain ⟨dx, hx⟩ := Option.isSome_iff_exists.1 (K.shared .ecdh384 k k')
  obtain ⟨key, hk, hkl⟩ := K.kdf flag kdfLabel (kdfInfo .a256gcm) (dx ++ (r ++ r')) (CipherSuite.keyLen .a256gcm)
  refine ⟨key, ?_, ?_, hkl⟩
  · simp only [OwnerServer.newKex, KexSuite.isEcdh, if_true, KeyExchange.deriveKey, KeyExchange.secret]
    rw [hd _ _ _ _ _ h', hx]
    simp only [Res.bind_ok, hk, ofOpt]
  · simp only [OwnerServer.newKex, KexSuite.isEcdh, if_true, KeyExchange.deriveKey, KeyExchange.secret]
    rw [hd _ _ _ _ _ h, ← K.comm, hx]
    simp only [Res.bind_ok, hk, ofOpt]

/-! ### The device's proof -/

/-- The device's token. -/
def deviceToken (R : DevEnv) (prot s n6 n7 ueid pub : Bytes) : Bytes :=
  shortest [R.E.encBytes prot, R.encEuph n7, R.E.encBytes (R.encClaims n6 ueid (some (R.encProve pub))), R.E.encBytes s]

theorem checkToken_good (C : CodecLaws R.E) (W : Wire R encode) {prot s n6 n7 guid pub : Bytes} {dev : R.E.Pub} (h1 : prot.length < 2 ^ 63)
    (h2 : s.length < 2 ^ 63) (h6 : n6.length = 16) (h7 : n7.length = 16) (hg : guid.length = 16) (hpub : pub.length < 2 ^ 32)
    (hc : R.E.coseOk prot (R.encEuph n7) = true)
    (hv : R.E.verify dev prot (R.encClaims n6 (asUeid guid) (some (R.encProve pub))) s = true) :
    OwnerServer.checkToken R.toOwnerEnv c (deviceToken R prot s n6 n7 (asUeid guid) pub) dev n6 = some (n7, pub) ∧
    (∃ x, parseSign1 R.E c (deviceToken R prot s n6 n7 (asUeid guid) pub) = .ok x) := by
  have hu : (asUeid guid).length = 17 := by simp [asUeid, hg]
  obtain ⟨hp1, hp2⟩ := W.prove pub hpub
  obtain ⟨hc1, hc2⟩ := W.claims n6 _ _ h6 hu hpub
  have hr := (signed_reads (c := c) C (W.euph n7 h7).2 h1 hc2 h2 hc).2
  refine ⟨?_, _, hr⟩
  unfold OwnerServer.checkToken RvServer.getEat deviceToken
  rw [hr]
  simp only [(W.euph n7 h7).1, Res.bind_ok, hv, if_true, hc1, ofOpt]
  simp [RvServer.eatFromMap, asUeid, fromUeid, hp1]

end Verif.Device
