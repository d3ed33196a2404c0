import Verif.Spec.To0
import Verif.Lemmas.Onboard
import Verif.Props.RvReplace
/-!
The messages of TO0 and TO1 between honest parties: each is read by the other side and passes its checks.
-/
namespace Verif.To0
open Verif Verif.Voucher Verif.Store Verif.OwnerServer Verif.Cbor.Spec
variable {R : OwnerEnv} {c : Bool} {N : Msgs} {A : Http.Aead} {encode : RvServer.Resp → Bytes} {cfg : OwnerServer.Config R}
    {rcfg : RvServer.Config R.toRvEnv} {dev : R.E.Pub} {v : Voucher R.E}

/-- `signed_reads` for any environment. -/
theorem signed_reads {E : Env} (C : CodecLaws E) {prot unprot pl s : Bytes} (hu : IsItem unprot) (h1 : prot.length < 2 ^ 63)
    (h2 : pl.length < 2 ^ 63) (h3 : s.length < 2 ^ 63) (hc : E.coseOk prot unprot = true) :
    Cbor.serialize ⟨some 18, [E.encBytes prot, unprot, E.encBytes pl, E.encBytes s]⟩ =
      .ok (shortest [E.encBytes prot, unprot, E.encBytes pl, E.encBytes s]) ∧
    parseSign1 E c (shortest [E.encBytes prot, unprot, E.encBytes pl, E.encBytes s]) = .ok ⟨prot, unprot, pl, s⟩ ∧
    IsItem (shortest [E.encBytes prot, unprot, E.encBytes pl, E.encBytes s]) := by
  have hi : ∀ i ∈ [E.encBytes prot, unprot, E.encBytes pl, E.encBytes s], IsItem i := by
    intro i hi
    simp only [List.mem_cons, List.not_mem_nil, or_false] at hi
    rcases hi with rfl | rfl | rfl | rfl
    · exact C.bytes_item _ h1
    · exact hu
    · exact C.bytes_item _ h2
    · exact C.bytes_item _ h3
  refine ⟨serialize_sign1 rfl, ?_, ?_⟩
  · unfold parseSign1
    rw [sign1_reads (isSign1_shortest rfl hi)]
    simp only [liftP, Res.bind_ok, ne_eq, not_true, if_false, getLeaf, getRaw, List.getElem?_cons_zero, List.getElem?_cons_succ,
      C.bytes_dec _ h1, C.bytes_dec _ h2, C.bytes_dec _ h3, ofOpt, hc, if_true]
    rfl
  · exact .tag (v := 18) (h := [0xd2]) (body := [0x84] ++ List.flatten [E.encBytes prot, unprot, E.encBytes pl, E.encBytes s])
      (.imm (m := 6) (v := 18) (by omega) (by omega))
      (.array (v := 4) (h := [0x84]) (.imm (m := 4) (v := 4) (by omega) (by omega)) rfl hi)

/-- The registration data are written and read back. -/
theorem to0d_reads (H : Honest R c N A encode cfg rcfg dev v) {n : Bytes} (hn : n.length = 16) :
    ∃ b, buildTo0d R v cfg.period n = .ok b ∧ RvServer.parseTo0d R.toRvEnv c b = .ok ⟨v, cfg.period, n⟩ := by
  obtain ⟨bs, h1, h2⟩ := rewritable_roundtrip H.voucher.written []
  rw [List.append_nil] at h2
  have hitem : IsItem bs := by
    refine isItem_array (tag := v.contents.tag) (l := v.contents.contents) H.voucher.written.tag H.voucher.written.items ?_ (by rw [H.voucher.written.wf.len]; omega)
    unfold Voucher.serialize at h1
    exact liftP_eq_ok.1 h1
  obtain ⟨b, hb, hr⟩ := roundtrip (c := c) (some 3) ⟨none, [bs, R.encU32 cfg.period, R.encNonce n]⟩ [] (by
      intro i hi
      simp only [List.mem_cons, List.not_mem_nil, or_false] at hi
      rcases hi with rfl | rfl | rfl
      · exact hitem
      · exact (H.wire.u32 _ H.period).2
      · exact (H.wire.nonce _ hn).2) (by simp) nofun (.inr ⟨rfl, by simp⟩)
  rw [List.append_nil] at hr
  refine ⟨b, ?_, ?_⟩
  · unfold buildTo0d
    rw [h1, Res.bind_ok, hb]
    rfl
  · unfold RvServer.parseTo0d
    rw [hr]
    simp only [liftP, Res.bind_ok, getRaw, getLeaf, List.getElem?_cons_zero, List.getElem?_cons_succ, h2, (H.wire.u32 _ H.period).1,
      (H.wire.nonce _ hn).1, ofOpt]
    rfl

/-- What the owner makes of the nonce. -/
structure Made (R : OwnerEnv) (c : Bool) (cfg : OwnerServer.Config R) (v : Voucher R.E) (n to0d to1d : Bytes) (s : Sign1) : Prop where
  built : buildOwnerSign R cfg v n = .ok (to0d, to1d)
  reads : RvServer.parseTo0d R.toRvEnv c to0d = .ok ⟨v, cfg.period, n⟩
  size : to0d.length < 2 ^ 63
  item : IsItem to1d
  blob : parseSign1 R.E c to1d = .ok s
  payload : s.payload = R.encTo1 ⟨.sha384, R.E.digest .sha384 to0d⟩
  signed : R.E.verify cfg.ownerPub s.prot s.payload s.sig = true

theorem made (H : Honest R c N A encode cfg rcfg dev v) {n : Bytes} (hn : n.length = 16) :
    ∃ to0d to1d s, Made R c cfg v n to0d to1d s := by
  obtain ⟨to0d, h1, h2⟩ := to0d_reads H hn
  have hs := H.voucher.small n to0d hn h1
  obtain ⟨w1, w2⟩ := H.wire.to1 ⟨.sha384, R.E.digest .sha384 to0d⟩ (by simp [H.digest])
  obtain ⟨prot, sg, s1, s2, s3, s4, s5⟩ := H.key _ w2
  obtain ⟨e1, e2, e3⟩ := signed_reads (c := c) H.codec Device.emptyMap_item s2 w2 s3 s4
  refine ⟨to0d, _, _, ?_, h2, hs, e3, e2, rfl, s5⟩
  unfold buildOwnerSign
  rw [h1]
  simp only [Res.bind_ok, Env.hashData, HashType.isPlain, if_true, signRaw]
  rw [s1]
  simp only [ofOpt, Res.bind_ok]
  rw [e1]
  rfl

theorem bagHasKey_good {R : RvServer.RvEnv} {bag : List R.C.Cert} {k : R.E.Pub} (h1 : ∀ cert ∈ bag, ∃ k, R.C.publicKey cert = some k)
    (h2 : ∃ cert ∈ bag, ∃ ck, R.C.publicKey cert = some ck ∧ R.sameKey k ck = true) : RvServer.bagHasKey R bag k = .ok true := by
  induction bag with
  | nil => obtain ⟨_, h, _⟩ := h2; cases h
  | cons x r ih =>
    obtain ⟨kx, hx⟩ := h1 x (by simp)
    unfold RvServer.bagHasKey
    rw [hx]
    simp only
    split
    · rfl
    · rename_i hne
      obtain ⟨y, hy, ck, hk, hs⟩ := h2
      rcases List.mem_cons.1 hy with rfl | hy
      · rw [hx] at hk
        cases hk
        exact absurd hs hne
      · exact ih (fun z hz => h1 z (by simp [hz])) ⟨y, hy, ck, hk, hs⟩

/-- The rendezvous server accepts it. -/
theorem accepted (H : Honest R c N A encode cfg rcfg dev v) {n to0d to1d : Bytes} {s : Sign1} (M : Made R c cfg v n to0d to1d s) :
    RvServer.checkOwnerSign R.toRvEnv c rcfg n to0d to1d = .ok ⟨v.header.guid, ⟨dev, to1d⟩, min cfg.period rcfg.maxWait⟩ := by
  obtain ⟨hdr, info, ps, o1, o2, o3, o4, o5⟩ := H.voucher.owner
  obtain ⟨ch, x, leaf, d1, -, d3, d4⟩ := H.voucher.device
  have hm : RvServer.mfgTrusted R.toRvEnv rcfg v.header.mfgKey = .ok () := by
    unfold RvServer.mfgTrusted
    cases hb : rcfg.mfgKeys with
    | none => rfl
    | some bag =>
      obtain ⟨b1, b2⟩ := H.voucher.manufacturer bag hb
      simp only [bagHasKey_good b1 b2]
  have hh : RvServer.to1Hash R.toRvEnv c to1d cfg.ownerPub = .ok ⟨.sha384, R.E.digest .sha384 to0d⟩ :=
    RvServer.to1Hash_ok.2 ⟨s, M.blob, M.signed, by rw [M.payload]; exact (H.wire.to1 _ (by simp [H.digest])).1⟩
  have hc : RvServer.checkTo0Hash R.toRvEnv ⟨.sha384, R.E.digest .sha384 to0d⟩ to0d = .ok () := RvServer.checkTo0Hash_ok.2 ⟨rfl, rfl⟩
  have hk : RvServer.deviceKey R.toRvEnv rcfg v.chain = .ok dev := by
    unfold RvServer.deviceKey
    rw [d1]
    simp only [d3, d4, ofOpt]
  unfold RvServer.checkOwnerSign
  rw [M.reads]
  simp only [Res.bind_ok]
  rw [if_neg (by simp), hm, Res.bind_ok, Device.ownerOf_chain o2 o1 o3 o4, Res.bind_ok, o5, hh, Res.bind_ok, hc, Res.bind_ok, hk, Res.bind_ok]
  have : (if cfg.period > rcfg.maxWait then rcfg.maxWait else cfg.period) = min cfg.period rcfg.maxWait := by
    split <;> omega
  rw [this]
  rfl

/-- The message is read. -/
theorem msg_reads (C : CodecLaws R.E) {n to0d to1d : Bytes} {s : Sign1} (M : Made R c cfg v n to0d to1d s) :
    ∃ b, ownerSignMsg R to0d to1d = .ok b ∧ RvServer.parseOwnerSign R.toRvEnv c b = .ok (.ownerSign to0d to1d) := by
  obtain ⟨b, hb, hr⟩ := roundtrip (c := c) (some 2) ⟨none, [R.E.encBytes to0d, to1d]⟩ [] (by
      intro i hi
      simp only [List.mem_cons, List.not_mem_nil, or_false] at hi
      rcases hi with rfl | rfl
      · exact C.bytes_item _ M.size
      · exact M.item) (by simp) nofun (.inr ⟨rfl, by simp⟩)
  rw [List.append_nil] at hr
  refine ⟨b, by unfold ownerSignMsg; rw [hb]; rfl, ?_⟩
  unfold RvServer.parseOwnerSign
  rw [hr]
  simp only [liftP, Res.bind_ok, getRaw, getLeaf, List.getElem?_cons_zero, List.getElem?_cons_succ, C.bytes_dec _ M.size, ofOpt, M.blob]
  rfl

end Verif.To0
