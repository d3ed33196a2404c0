import Verif.Lemmas.WireMsg
import Verif.Spec.Life
/-!
C83: messages are read as they were written.
-/
namespace Verif.Wire
open Verif Verif.Types Verif.Cbor.Spec

/-- C83: an item is read as it was written, if its integers have 64 bits and it is nested less than 128 deep. -/
theorem C83_item (i : Item) (h : i.Fits 127) (hs : (enc i).length < 2 ^ 64) : fromSlice (enc i) = some i := fromSlice_fits h hs

/-- C83: no item at all is read as something else. -/
theorem C83_item_exact (i j : Item) (h : fromSlice (enc i) = some j) : j = i := fromSlice_exact h

/-- C83: service info values are read as they were written. -/
theorem C83_value_partial (v : ServiceInfo.Val) (h : Plain 127 v) (hs : (value.write v).length < 2 ^ 64) :
    value.read (value.write v) = some v := value_rw h hs

section
variable {E : Env} {F : Forms E}

/-- C83: all that vouchers are made of is read as it was written: the assumptions about codecs in other claims hold. -/
theorem C83_voucher_partial (S : SpeaksVoucher E F) (L : F.Laws) : Voucher.CodecLaws E ∧ Voucher.LeafLaws E := by
  have hk : ∀ p, KeyForm (F.pub p) := L.type
  have hx : ∀ (p : EntryPayload E.Pub E.Extra), ∀ e ∈ (F.payload p).extra, ∀ x ∈ e, x.1 < 2 ^ 64 := by
    intro p e he x hx
    obtain ⟨e', _, rfl⟩ := Option.map_eq_some_iff.1 (show p.extra.map F.extra = some e from he)
    exact L.small e' x hx
  refine ⟨⟨?_, ?_, ?_⟩, ?_⟩
  · intro b h
    rw [S.encBytes, S.decBytes]
    exact (bytes_rw h).1
  · intro b h
    rw [S.encBytes]
    exact (bytes_rw h).2
  · intro p h
    rw [S.encPayload] at h ⊢
    rw [S.decPayload]
    dsimp only at h ⊢
    rw [Codec.read_write (payload_de (hx p) (hk _)) (payload_fits (hx p) (hk _) 125) (by omega)]
    simp only [Option.bind_some, Forms.payloadOf, Forms.payload, L.pub, Option.map_some, Option.map_map]
    obtain ⟨a, b, e, k⟩ := p
    cases e <;> simp [L.extra]
  have hv : ∀ n, n = 100 ∨ n = 101 → (version.write n).length < 2 ^ 63 ∧ (version.ser n).Solid 127 := by
    intro n h
    have := enc_uint_le n
    simp only [Codec.write, version, Item.Solid]
    omega
  have hc : ∀ c, (E.encChainOpt c).length < 2 ^ 63 →
      (Codec.opt chain).read ((Codec.opt chain).write (c.map F.chain)) = some (c.map F.chain) := by
    intro c h
    rw [S.encChainOpt] at h
    dsimp only at h
    cases c with
    | none => exact Codec.read_write rfl (by simp [Codec.opt, Item.Fits]) (by omega)
    | some c =>
      exact Codec.read_write (opt_de (by simp [chain, Codec.list]) (chain_de _)) ((chain_solid _ 126).fits) (by omega)
  constructor
  · intro n h
    rw [S.encVersion, S.decVersion]
    exact Codec.read_write (by simp only [version, if_pos h]) (hv n h).2.fits (by have := (hv n h).1; omega)
  · intro n h
    rw [S.encVersion]
    exact isItem_solid 127 (hv n h).2 (hv n h).1
  · intro g h
    rw [S.encGuid, S.decGuid]
    exact (nonce_rw h).1
  · intro g h
    rw [S.encGuid]
    exact (nonce_rw h).2
  · intro s h
    rw [S.encText] at h ⊢
    rw [S.decText]
    exact Codec.read_write rfl (by simp [Codec.text, Item.Fits]) (by omega)
  · intro s h
    rw [S.encText] at h ⊢
    exact isItem_solid 0 (by simp [Codec.text, Item.Solid]) h
  · intro p h
    rw [S.encPub] at h ⊢
    rw [S.decPub]
    dsimp only at h ⊢
    rw [Codec.read_write (publicKey_de (hk p)) (publicKey_solid (hk p) 126).fits (by omega)]
    exact L.pub p
  · intro p h
    rw [S.encPub] at h ⊢
    exact isItem_solid 1 (publicKey_solid (hk p) 0) h
  · intro r h
    rw [S.encRv] at h ⊢
    rw [S.decRv]
    dsimp only at h ⊢
    rw [Codec.read_write (rvInfo_de (L.vars r)) (rvInfo_solid (L.vars r) 124).fits (by omega)]
    exact congrArg some (L.rv r)
  · intro r h
    rw [S.encRv] at h ⊢
    exact isItem_solid 3 (rvInfo_solid (L.vars r) 0) h
  · intro x h
    rw [S.encHash] at h ⊢
    rw [S.decHash]
    exact (hash_rw h).1
  · intro x h
    rw [S.encHash] at h ⊢
    exact (hash_rw h).2
  · intro x h
    rw [S.encHashOpt] at h ⊢
    rw [S.decHashOpt]
    cases x with
    | none => exact Codec.read_write rfl (by simp [Codec.opt, Item.Fits]) (by omega)
    | some x => exact Codec.read_write (opt_de (by simp [hash, Codec.pair]) (hash_de x)) (hash_solid x 126).fits (by omega)
  · intro x h
    rw [S.encHashOpt] at h ⊢
    exact isItem_solid 1 (hash_solid x 0) h
  · rw [S.encHashOpt]
    rfl
  · intro c h
    have := hc c h
    rw [S.encChainOpt, S.decChainOpt]
    dsimp only
    rw [this]
    cases c with
    | none => rfl
    | some c => simp only [Option.map_some, L.chain]
  · intro c h
    rw [S.encChainOpt] at h ⊢
    exact isItem_solid 1 (chain_solid _ 0) h
  · rw [S.encChainOpt]
    rfl

end

/-- C83: owner and rendezvous server understand each other in TO0. -/
theorem C83_to0 {R : OwnerServer.OwnerEnv} {N : To0.Msgs} {encode : RvServer.Resp → Bytes} (S : SpeaksTo0 R N encode) :
    To0.Wire R N encode where
  hello := by
    rw [S.helloOk, S.hello]
    decide +kernel
  ack n h := by
    rw [S.ack, S.decAck]
    exact nonceMsg_rw h
  accept w h := by
    rw [S.accept, S.decAccept]
    exact acceptOwner_rw h
  u32 n h := by
    rw [S.encU32, S.decU32]
    exact uint_rw h (by decide)
  nonce n h := by
    rw [S.encNonce, S.decNonce]
    exact nonce_rw h
  to1 h hl := by
    obtain ⟨l, h1, h2⟩ := S.encTo1
    rw [h2, S.decTo1]
    dsimp only
    rw [(to1_rw h1 hl).1]
    exact ⟨rfl, (to1_rw h1 hl).2⟩

/-- C83: device and rendezvous server understand each other in TO1. -/
theorem C83_to1 {R : Device.DevEnv} {encode : RvServer.Resp → Bytes} (S : SpeaksTo1 R encode) : To0.Wire1 R encode where
  hello g h := by
    rw [S.encHelloRv, S.decHelloRv]
    dsimp only
    rw [helloRv_rw h]
    rfl
  ack n h := by
    rw [S.ack, S.decHelloAck]
    dsimp only
    rw [show helloRvAck.read (helloRvAck.write (n, -35, [])) = _ from helloRv_rw h]
    rfl
  redirect := S.redirect
  claims n u hn hu := by
    obtain ⟨l, h1, h2⟩ := S.encClaims n u
    rw [h2, S.decClaims]
    exact claims_rw hn hu (fdo := none) (fun _ h => by cases h) (fun _ h => by cases h) h1

theorem serialize_length {l : List Bytes} {b : Bytes} (hn : l.length = 8) (h : liftP (Cbor.serialize ⟨none, l⟩) = .ok b) :
    b.length = 1 + l.flatten.length := by
  have h1 : Cbor.encodeItemStart 4 8 = .ok [0x88] := by decide +kernel
  have h2 : Cbor.serialize ⟨none, l⟩ = .ok ([] ++ [0x88] ++ l.flatten) := by
    simp only [Cbor.serialize, hn, h1]
    rfl
  rw [h2] at h
  cases h
  simp; omega

set_option maxHeartbeats 1000000 in
/-- C83: device and owner understand each other in TO2. -/
theorem C83_to2 {R : Device.DevEnv} {F : Forms R.E} {encode : OwnerServer.Resp → Bytes} (V : SpeaksVoucher R.E F) (L : F.Laws)
    (S : SpeaksTo2 R F encode) : Device.Wire R encode where
  hello g n hg hn := by
    rw [S.encHello, S.decHello]
    dsimp only
    rw [hello_rw (by decide) hg hn (by simp)]
    rfl
  getEntry n h := by
    rw [S.encGetEntry, S.decGetEntry]
    exact getEntry_rw h
  ready := by
    rw [S.encReady, S.decReady]
    decide +kernel
  deviceSi si h := by
    obtain ⟨more, e⟩ := S.encDeviceSi
    rw [e] at h ⊢
    rw [S.decDeviceSi]
    dsimp only at h ⊢
    rw [deviceSi_rw (by omega)]
    rfl
  done n h := by
    rw [S.encDone, S.decDone]
    exact nonceMsg_rw h
  proveOvHdr := S.proveOvHdr
  ovEntry n e _ := S.ovEntry n e
  setupDevice := S.setupDevice
  ownerReady := by
    rw [S.ownerReady, S.decOwnerReady]
    decide +kernel
  ownerSi m h := by
    rw [S.ownerSi] at h ⊢
    rw [S.decOwnerSi]
    exact ownerSi_rw h
  lastSi := by
    rw [S.ownerSi, S.decOwnerSi]
    exact ownerSi_rw (by decide +kernel)
  done2 n h := by
    rw [S.done2, S.decDone2]
    exact nonceMsg_rw h
  u16 n h := by
    rw [S.encU16, S.decU16]
    exact uint_rw h (by decide)
  nonce n h := by
    rw [S.encNonce, S.decNonce]
    exact nonce_rw h
  sig := by
    rw [S.encSig, S.decSigInfo]
    dsimp only
    have := sigInfo_rw (sigNum_mem .es384)
    rw [this.1]
    exact ⟨rfl, this.2⟩
  hash h hl := by
    rw [V.encHash, V.decHash]
    exact hash_rw (by have := hash_le h; simp only [Codec.write]; omega)
  cuph n k h := by
    obtain ⟨l, h1, h2⟩ := S.encUnprot n k
    have hlen : (header.write l).length < 2 ^ 63 := by
      rw [header_perm h1]
      have h3 := enc_map_le [(Codec.int cuphNonce, .bytes n), (Codec.int cuphOwner, publicKey.ser (F.pub k))]
      have h4 := enc_bytes_le n
      have h5 := publicKey_le (F.pub k)
      have h6 := enc_int_le cuphNonce
      have h7 := enc_int_le cuphOwner
      have h8 := L.size k
      simp only [encPairs, List.length_append, List.length_nil] at h3
      simp only [Codec.write, header, List.map_nil, List.map_cons]
      omega
    have hr := header_rw (l := l) (fun x hx => by
      have := h1.mem_iff.1 hx
      simp only [List.mem_cons, List.not_mem_nil, or_false] at this
      rcases this with rfl | rfl
      · exact ⟨by dsimp only; decide, bytes_solid _ _⟩
      · exact ⟨by dsimp only; decide, publicKey_solid (L.type k) 2⟩) hlen
    have hd : (l.map (·.1)).Nodup := (h1.map _).nodup_iff.2 (by simp [cuphNonce, cuphOwner])
    rw [h2, S.cuphNonce]
    exact ⟨headerValue_of (i := .bytes n) hr.1 hd (h1.mem_iff.2 (by simp)) (by simp only [Codec.bytes16, if_pos h]), hr.2⟩
  euph n h := by
    have hlen : (header.write [(euphNonce, .bytes n)]).length < 2 ^ 63 := by
      have h3 := enc_map_le [(Codec.int euphNonce, .bytes n)]
      have h4 := enc_bytes_le n
      have h6 := enc_int_le euphNonce
      simp only [encPairs, List.length_append, List.length_nil] at h3
      simp only [Codec.write, header, List.map_nil, List.map_cons]
      omega
    have hr := header_rw (l := [(euphNonce, .bytes n)]) (fun x hx => by
      simp only [List.mem_cons, List.not_mem_nil, or_false] at hx
      subst hx
      exact ⟨by dsimp only; decide, bytes_solid _ _⟩) hlen
    rw [S.encEuph, S.euphNonce]
    exact ⟨headerValue_of (i := .bytes n) hr.1 (by simp) (by simp) (by simp only [Codec.bytes16, if_pos h]), hr.2⟩
  prove b h := by
    rw [S.encProve, S.decProve]
    exact ⟨(proveDevice_rw h).1, (proveDevice_rw h).2.1⟩
  claims n u b hn hu hb := by
    obtain ⟨_, h2, h3⟩ := proveDevice_rw hb
    obtain ⟨l, h4, h5⟩ := S.encClaims n u b hb
    rw [S.encProve, h5, S.decClaims]
    refine claims_rw hn hu (fdo := some (proveDevice.ser b)) ?_ ?_ h4
    · intro i hi; cases hi; exact h3
    · intro i hi
      cases hi
      have : (enc (proveDevice.ser b)).length < 2 ^ 33 := h2
      omega
  proof p b h1 h2 h3 h4 h5 h := by
    have hl := serialize_length (by rfl) h
    simp only [List.flatten_cons, List.flatten_nil, List.length_append, List.length_nil, V.encBytes, V.encHash, S.encU16, S.encNonce,
      S.encSig, Codec.write, Codec.bytes, Codec.bytes16, Codec.uint] at hl
    have e1 := enc_bytes_le p.header
    have e2 := enc_uint_le p.num
    have e3 := hash_le p.hmac
    have e4 := enc_bytes_le p.nonce5
    have e5 := sigInfo_le (sigNum p.sig, [])
    have e6 := enc_bytes_le p.kexA
    have e7 := hash_le p.helloHash
    have e8 := enc_uint_le OwnerServer.maxMessageSize
    simp only [List.length_nil] at e5
    omega

/-- C83: manufacturing server and client understand each other. What is signed is not part of it. -/
theorem C83_mfg {R : MfgClient.ClientEnv} {F : Forms R.E} {cfg : MfgServer.Config R.toMfgEnv} {encode : MfgServer.Resp → Bytes}
    (L : F.Laws) (S : SpeaksMfg R F encode)
    (hs : ∀ d n p prot sig, cfg.diun = some d → R.signNonce d.key n (R.encAccept p) = some (prot, sig) →
      prot.length < 2 ^ 63 ∧ sig.length < 2 ^ 63) : MfgClient.Wire R cfg encode where
  connect m m' h := by
    rw [S.encConnect, S.decConnect] at h
    exact connect_exact.read h
  accept b b' h := by
    rw [S.encAccept, S.decAccept] at h
    exact acceptPayload_exact.read h
  token := S.token
  header := S.header
  provideKey d s x h := by
    rw [S.encProvideKey, S.decProvideKey] at h
    exact provideKey_exact.read h
  appStart i i' raw h h' := by
    rw [S.encAppStart, S.decAppStart] at h
    rw [appStart_exact.read h, S.decMfgInfo] at h'
    obtain ⟨v, h1, h2⟩ := Option.map_eq_some_iff.1 h'
    rw [text_value h1] at h2
    simp only [String.ofList_toList, Option.some.injEq] at h2
    exact h2.symm
  setHmac h h' e := by
    rw [S.encSetHmac, S.decSetHmac] at e
    exact setHmac_exact.read e
  keyUnprot d _ := by
    have hlen : (header.write [(cuphOwner, publicKey.ser (F.pub d.pub))]).length < 2 ^ 63 := by
      have h3 := enc_map_le [(Codec.int cuphOwner, publicKey.ser (F.pub d.pub))]
      have h5 := publicKey_le (F.pub d.pub)
      have h7 := enc_int_le cuphOwner
      have h8 := L.size d.pub
      simp only [encPairs, List.length_append, List.length_nil] at h3
      simp only [Codec.write, header, List.map_nil, List.map_cons]
      omega
    rw [S.encKeyUnprot]
    refine (header_rw (l := [_]) (fun x hx => ?_) hlen).2
    simp only [List.mem_cons, List.not_mem_nil, or_false] at hx
    subst hx
    exact ⟨by dsimp only; decide, publicKey_solid (L.type _) 2⟩
  payload b h := by
    rw [S.encAccept]
    exact acceptPayload_le h
  sizes := hs

/-- C83: the manufacturing server reads what its client sends: key exchange values, keys and texts up to 4 GiB. -/
theorem C83_mfg_reads {R : MfgClient.ClientEnv} {F : Forms R.E} {encode : MfgServer.Resp → Bytes} (S : SpeaksMfg R F encode) :
    (∀ m : MfgServer.Connect, m.nonce.length = 16 → m.keyExchange.length < 2 ^ 32 → R.decConnect (R.encConnect m) = some m) ∧
    (∀ b : Bytes, b.length < 2 ^ 32 → R.decAccept (R.encAccept b) = some b) ∧
    (∀ (d : Bytes) s, d.length < 2 ^ 32 → R.decProvideKey (R.encProvideKey d s) = some (d, s)) ∧
    (∀ i : String, (utf8 i).length < 2 ^ 32 → (R.decAppStart (R.encAppStart i)).bind R.decMfgInfo = some (some i)) ∧
    (∀ h : Hash, h.value.length ≤ 64 → R.decSetHmac (R.encSetHmac h) = some h) := by
  refine ⟨?_, ?_, ?_, ?_, ?_⟩
  · intro m h1 h2
    rw [S.encConnect, S.decConnect]
    exact connect_rw h1 h2
  · intro b h
    rw [S.encAccept, S.decAccept]
    exact acceptPayload_rw h
  · intro d s h
    rw [S.encProvideKey, S.decProvideKey]
    exact provideKey_rw h s
  · intro i h
    have hl : (value.write (.text i.toList)).length < 2 ^ 33 := by
      simp only [Codec.write, value, serVal, String.ofList_toList]
      exact text_len h
    rw [S.encAppStart, S.decAppStart]
    dsimp only
    rw [appStart_rw hl, Option.bind_some, S.decMfgInfo]
    dsimp only
    rw [value_rw (by simp [Plain]) (by omega)]
    simp only [Option.map_some, String.ofList_toList]
  · intro h hl
    rw [S.encSetHmac, S.decSetHmac]
    exact setHmac_rw hl

/-- C83: what a device announces about itself can be read by its owner, if the texts are not larger than 4 GiB. -/
theorem C83_announces {R : Device.DevEnv} (h1 : R.encVal = value.write) (h2 : R.decVal = value.read) {h : SiClient.Host}
    {t : Trace (Device.sig R)} (hos : (utf8 (String.ofList h.os)).length < 2 ^ 32) (har : (utf8 (String.ofList h.arch)).length < 2 ^ 32)
    (hv : ∀ v : List Char, (⟨.app (.host .devMod .osRelease), (some (some v) : Option (Option (List Char)))⟩ : (Device.sig R).Deed) ∈ t →
      (utf8 (String.ofList v)).length < 2 ^ 32) : Device.Announces R h t := by
  intro sub clevis v hd x hx
  have htext : ∀ s : List Char, (utf8 (String.ofList s)).length < 2 ^ 32 → value.read (value.write (.text s)) = some (.text s) := by
    intro s hs
    refine value_rw (by simp [Plain]) ?_
    have := head_le 3 (utf8 (String.ofList s)).length
    simp only [Codec.write, value, serVal, enc, List.length_append]
    omega
  rw [h1, h2]
  simp only [SiClient.devmod, List.mem_cons, List.not_mem_nil, or_false] at hx
  rcases hx with rfl | rfl | rfl | rfl | rfl | rfl | rfl | rfl | rfl
  · exact value_rw (by simp [Plain]) (by decide +kernel)
  · exact htext _ hos
  · exact htext _ har
  · exact htext _ (hv v hd)
  · exact htext _ (by decide +kernel)
  · exact htext _ (by decide +kernel)
  · exact htext _ har
  · cases sub <;> cases clevis <;> exact value_rw (by simp [Plain, Device.announced]) (by decide +kernel)
  · cases sub <;> cases clevis <;>
      exact value_rw (by simp [Plain, Device.announced]) (by decide +kernel)

/-! ### Error messages -/

/-- C83: the error messages of servers can be read. -/
theorem C83_error_partial (code : Nat) (hc : code ∈ errorCodes) (previous : MsgType) (text : String) (uuid : Nat)
    (hs : (errorMsg.write (serverError code previous text uuid)).length < 2 ^ 64) :
    errorMsg.read (errorMsg.write (serverError code previous text uuid)) = some (serverError code previous text uuid) :=
  have h : uuid % 2 ^ 64 < 2 ^ 64 := Nat.mod_lt _ (by decide)
  Codec.read_write (error_de hc rfl h) (error_fits hc rfl h) hs

/-- C83, failing: the error messages of devices cannot be read, none of them. The random UUID in them is written with more than 64 bits. -/
theorem C83_error_violated (code : Nat) (previous : MsgType) (text : String) (uuid : Nat) (h : RandomUuid uuid) :
    errorMsg.read (errorMsg.write (clientError code previous text uuid)) = none := by
  have h1 : 2 ^ 64 ≤ uuid := by
    have := h.2
    omega
  refine read_none ?_
  simp only [errorMsg, clientError, u128_none h1]
  split
  · rename_i e
    exact absurd e (by simp)
  · rfl

/-- C83, failing: an entry whose extra data have a key of more than 64 bits cannot be read. -/
theorem C83_extra_violated (p : EntryPayload (Int × Int × Bytes) (List (Nat × Bytes))) {e : List (Nat × Bytes)} (he : p.extra = some e)
    {x : Nat × Bytes} (hx : x ∈ e) (hk : 2 ^ 64 ≤ x.1) : payload.read (payload.write p) = none := by
  refine read_none ?_
  have h1 : extra.de (extra.ser e) = none := dePairs_none hx (u128_none hk)
  have h2 : (Codec.opt extra).de ((Codec.opt extra).ser (some e)) = none := by
    simp only [Codec.opt]
    rw [show extra.ser e = .map (e.map fun x => (Codec.u128.ser x.1, .bytes x.2)) from rfl] at h1 ⊢
    simp only [h1, Option.map_none]
  simp only [payload, he, h2, hash_de]

/-- C83, failing: an integer of more than 64 bits is read as byte string. -/
theorem C83_value_violated : ∃ n : Int, value.read (value.write (.int n)) = some (.bytes [1, 0, 0, 0, 0, 0, 0, 0, 0]) :=
  ⟨2 ^ 64, by
    have h : (value.ser (.int (2 ^ 64))).Fits 127 := by
      show (serVal (.int (Int.ofNat (2 ^ 64)))).Fits 127
      simp only [serVal, Nat.lt_irrefl, if_false, Item.Fits, and_true]
      decide
    rw [Codec.read, Codec.write, fromSlice_fits h (by decide +kernel)]
    show some (deVal (serVal (.int (Int.ofNat (2 ^ 64))))) = _
    simp only [serVal, Nat.lt_irrefl, if_false, deVal]
    exact congrArg (fun b => some (ServiceInfo.Val.bytes b)) (by decide +kernel)⟩

end Verif.Wire
