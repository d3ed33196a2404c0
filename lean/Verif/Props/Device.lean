import Verif.Spec.Device
import Verif.Lemmas.Device
import Verif.Lemmas.RvServer
/-!
The device's onboarding client: the owner is vetted before anything that matters is done (C46).
-/
namespace Verif.Device
open Verif Verif.Voucher Verif.Types Verif.ServiceInfo Verif.Fs
variable {R : DevEnv} {c : Bool} {A : Http.Aead}

/-! ### The checks -/

/-- Everything read fits in memory. -/
def Sized (R : DevEnv) : Prop := ∀ b x, R.E.decBytes b = some x → x.length < 2 ^ 63

theorem liftD_ok {α : Type} {r : Res Err α} {a : α} (h : liftD r = .ok a) : r = .ok a := by
  cases r with
  | ok b => cases h; rfl
  | err e => cases h
  | panic => cases h

theorem compare_ok {a b : Hash} {x : Unit} (h : a.compare b = .ok x) : a.value = b.value := by
  unfold Hash.compare memcmpEq at h
  split at h
  · rename_i h'
    split at h'
    · cases h'
    · simpa using Res.ok.inj h'
  · cases h
  · cases h
  · cases h

theorem verifyHmac_ok {K : Credential.Keys} {cr : Credential.Cred} {d : Bytes} {h : Hash} {x : Unit}
    (hv : cr.verifyHmac K d h = .ok x) : MadeWith K cr.keys d h := by
  obtain ⟨own, h1, h2⟩ := Res.bind_eq_ok.1 hv
  have h2 := compare_ok h2
  unfold Credential.KeyStorage.performHmac at h1
  cases hk : cr.keys with
  | plain secret priv =>
    rw [hk] at h1
    simp only [Hash.fromDigest] at h1
    split at h1
    · cases h1
    · cases h1
      exact h2
  | tpm a b pub priv =>
    rw [hk] at h1
    simp only at h1
    cases ht : K.tpm pub priv d with
    | none => rw [ht] at h1; cases h1
    | some x =>
      rw [ht] at h1
      obtain ⟨long, v⟩ := x
      simp only at h1
      have hv : own.value = v := by
        generalize (if long = true then HashType.sha384 else HashType.sha256) = ty at h1
        unfold Hash.fromDigest at h1
        split at h1
        · cases h1
        · cases h1
          rfl
      exact ⟨long, by rw [ht, h2, hv]⟩

theorem header_key {inp : Bytes} {h : Header R.E} (hd : Header.deserialize R.E c inp = .ok h) :
    ∃ key, h.contents.contents[4]? = some key ∧ R.E.decPub key = some h.mfgKey := by
  unfold Header.deserialize at hd
  obtain ⟨⟨a, r⟩, h1, hd⟩ := Res.bind_eq_ok.1 hd
  obtain ⟨v, h2, hd⟩ := Res.bind_eq_ok.1 hd
  obtain ⟨g, h3, hd⟩ := Res.bind_eq_ok.1 hd
  obtain ⟨rv, h4, hd⟩ := Res.bind_eq_ok.1 hd
  obtain ⟨i, h5, hd⟩ := Res.bind_eq_ok.1 hd
  split at hd
  · cases hd
  · obtain ⟨k, h6, hd⟩ := Res.bind_eq_ok.1 hd
    obtain ⟨ch, h7, hd⟩ := Res.bind_eq_ok.1 hd
    cases hd
    unfold getLeaf at h6
    split at h6
    · cases h6
    · next raw hr =>
      refine ⟨raw, hr, ?_⟩
      cases hk : R.E.decPub raw with
      | none => rw [hk] at h6; cases h6
      | some x => rw [hk] at h6; cases h6; rfl

theorem checkHello_ok {cr : Credential.Cred} {n5 : Bytes} {s : Sign1} {p : OwnerServer.ProveHdr}
    (hc : checkHello (R := R) c cr n5 s = .ok p) : parseProveHdr R c s.payload = .ok (p, []) ∧ p.nonce5 = n5 ∧
      p.sig = .es384 ∧ MadeWith R.H cr.keys p.header p.hmac ∧
      ∃ (h : Header R.E) (key : Bytes), Header.deserialize R.E c p.header = .ok h ∧ h.contents.contents[4]? = some key ∧
        R.E.decPub key = some h.mfgKey ∧ Commits R.E cr.keyHash key := by
  unfold checkHello at hc
  obtain ⟨⟨p', info⟩, h1, hc⟩ := Res.bind_eq_ok.1 hc
  have h1 := liftD_ok h1
  simp only at hc
  split at hc
  · cases hc
  next hn =>
  split at hc
  · cases hc
  next hs =>
  obtain ⟨x, h2, hc⟩ := Res.bind_eq_ok.1 hc
  obtain ⟨h, h3, hc⟩ := Res.bind_eq_ok.1 hc
  obtain ⟨kh, h4, hc⟩ := Res.bind_eq_ok.1 hc
  obtain ⟨y, h5, hc⟩ := Res.bind_eq_ok.1 hc
  cases hc
  have h3 := liftD_ok h3
  obtain ⟨raw, h6, h7⟩ := Res.bind_eq_ok.1 (liftD_ok h4)
  obtain ⟨key, h8, h9⟩ := header_key h3
  have hraw : raw = key := by
    unfold getRaw at h6
    rw [h8] at h6
    exact (Res.ok.inj h6).symm
  subst hraw
  simp only [not_or, ne_eq, Decidable.not_not] at hs hn
  refine ⟨by rw [h1, hs.2], hn.symm, hs.1, verifyHmac_ok (liftD_ok h2), h, raw, h3, h8, h9, ?_⟩
  have h5 := compare_ok (liftD_ok h5)
  unfold Env.hashData at h7
  split at h7
  · next hp =>
    cases h7
    exact ⟨hp, h5⟩
  · cases h7

/-- The owner found by iterating over the entries of a voucher. -/
theorem ownerOf_parts {E : Env} {v : Voucher E} {info hdr : Bytes} (hi : v.header.infoBytes E = .ok info)
    (hh : hdrBytes v = .ok hdr) {k : E.Pub} (h : RvServer.ownerOf c v = .ok k) :
    ∃ ps, SignChain E c info v.header.mfgKey hdr v.entries.contents ps ∧ ps ≠ [] ∧ lastOwner v.header.mfgKey ps = k := by
  obtain ⟨ps, tail, h1, h2, h3⟩ := polls_invariant (c := c) hi (v.entries.contents.length + 2) 0 v.header.mfgKey hdr
    (by simp [prevBytes, hh])
  rw [List.drop_zero] at h2
  have hlen : ps.length ≤ v.entries.contents.length := by
    have := h2.length
    simp at this; omega
  unfold RvServer.ownerOf RvServer.iterLast at h
  rw [show iterStart v = ⟨0, false, v.header.mfgKey⟩ from rfl, h1, RvServer.takeWhile_items] at h
  rcases h3 with ⟨_, h3⟩ | ⟨h3, _⟩ | ⟨e, m, h3, _⟩ | ⟨m, h3, _, h4⟩
  · omega
  · rw [h3] at h
    simp [RvServer.isDone] at h
  · rw [h3] at h
    simp [RvServer.isDone] at h
  · rw [h3] at h
    simp only [List.replicate_succ, List.takeWhile_cons, RvServer.isDone, Bool.not_true, Bool.false_eq_true, if_false,
      List.append_nil, List.getLast?_map] at h
    cases hl : ps.getLast? with
    | none => rw [hl] at h; simp at h
    | some p =>
      rw [hl] at h
      simp only [Option.map_some, Res.ok.injEq] at h
      refine ⟨ps, ?_, ?_, ?_⟩
      · rwa [List.take_of_length_le (by omega)] at h2
      · rintro rfl; cases hl
      · rw [RvServer.lastOwner_getLast _ _ _ hl, h]

theorem checkOwner_ok (C : CodecLaws R.E) {s to1d : Sign1} {p p' : OwnerServer.ProveHdr} {es : List Bytes} {h : Header R.E}
    (hs : p.header.length < 2 ^ 63) (hp : parseProveHdr R c s.payload = .ok (p, []))
    (hd : Header.deserialize R.E c p.header = .ok h) (hc : checkOwner (R := R) c s to1d p es = .ok p') :
    p' = p ∧ ∃ ps, SignChain R.E c (h.guid ++ h.deviceInfo.toUTF8.toList) h.mfgKey (p.header ++ R.E.encHash p.hmac) es ps ∧
      ps ≠ [] ∧ R.E.verify (lastOwner h.mfgKey ps) s.prot s.payload s.sig = true ∧
      R.E.verify (lastOwner h.mfgKey ps) to1d.prot to1d.payload to1d.sig = true := by
  unfold checkOwner at hc
  obtain ⟨v, h1, hc⟩ := Res.bind_eq_ok.1 hc
  obtain ⟨k, h2, hc⟩ := Res.bind_eq_ok.1 hc
  split at hc
  · cases hc
  next hv1 =>
  obtain ⟨⟨p1, i1⟩, h3, hc⟩ := Res.bind_eq_ok.1 hc
  simp only at hc
  split at hc
  · cases hc
  next hv2 =>
  have h3 := liftD_ok h3
  rw [hp] at h3
  cases h3
  cases hc
  have h1 := liftD_ok h1
  unfold Voucher.fromParts at h1
  obtain ⟨eb, g1, h1⟩ := Res.bind_eq_ok.1 h1
  obtain ⟨h', g2, h1⟩ := Res.bind_eq_ok.1 h1
  rw [hd] at g2
  cases g2
  cases h1
  have hh : hdrBytes (E := R.E) { contents := ⟨none, [R.E.encVersion 101, R.E.encBytes p.header, R.E.encHash p.hmac,
           R.E.encChainOpt none, eb]⟩, version := 101, header := h, hmac := p.hmac, chain := none, entries := ⟨none, es⟩ } =
      .ok (p.header ++ R.E.encHash p.hmac) := by
    simp only [hdrBytes, getLeaf, getRaw, List.getElem?_cons_succ, List.getElem?_cons_zero, C.bytes_dec _ hs]
    rfl
  obtain ⟨ps, k1, k2, k3⟩ := ownerOf_parts (header_info hd) hh (liftD_ok h2)
  refine ⟨rfl, ps, k1, k2, ?_, ?_⟩
  · rw [k3]; simpa using hv1
  · rw [k3]; simpa using hv2

theorem entriesFrom_ok : ∀ (k : Nat) {cl cl' : Http.Client} {i : Nat} {got es : List Bytes} {t : Trace (sig R)},
    cl.keys = none → got.length = i → Prog.Ends (entriesFrom (R := R) c A cl i got k) t (.ok (cl', es)) →
    cl'.keys = none ∧ es.length = i + k ∧ got <+: es ∧ ∀ j e, i ≤ j → es[j]? = some e → Gave c t j e := by
  intro k
  induction k with
  | zero =>
    intro cl cl' i got es t hk hg he
    obtain ⟨rfl, h⟩ := Proc.ends_pure he
    cases h
    refine ⟨hk, by simpa using hg, List.prefix_refl _, fun j e hj he => ?_⟩
    rw [List.getElem?_eq_none (by omega)] at he
    cases he
  | succ k ih =>
    intro cl cl' i got es t hk hg he
    obtain ⟨⟨cl1, m⟩, t1, t2, rfl, h1, h2⟩ := Proc.ends_bind he
    obtain ⟨iv, body, r, rfl, hx⟩ := ends_say h1
    obtain ⟨h3, h4⟩ := Proc.ends_check_bind h2
    have hmi : m.1 = i := by simpa using h3
    have hk1 : cl1.keys = none := by rw [hx.keys]; exact hk
    obtain ⟨k1, k2, k3, k4⟩ := ih hk1 (by simp [hg]) h4
    refine ⟨k1, by omega, (List.prefix_append _ _).trans k3, fun j e hj hje => ?_⟩
    have hcons : ∀ {u v : Trace (sig R)}, Gave c v j e → Gave c (u ++ v) j e := fun ⟨tok, b, r, h, h'⟩ =>
      ⟨tok, b, r, List.mem_append_right _ h, h'⟩
    by_cases hji : j = i
    · subst hji
      obtain ⟨q, hq, hdq⟩ := hx.reads
      rw [hk1] at hq
      cases hq
      have he' : e = m.2 := by
        obtain ⟨z, hz⟩ := k3
        rw [← hz, List.append_assoc, List.getElem?_append_right (by omega), hg, Nat.sub_self] at hje
        exact (Option.some.inj hje).symm
      refine ⟨_, _, r, List.mem_append_left _ (List.mem_cons_of_mem _ (List.mem_singleton.2 rfl)), ?_⟩
      rw [hdq, he', ← hmi]
    · exact hcons (k4 j e (by omega) hje)

/-- Once the first part of TO2 has succeeded, the owner is vetted, and the session's key is derived from the owner's proof. -/
theorem authenticate_ok (C : CodecLaws R.E) (S : Sized R) {cr : Credential.Cred} {to1d : Sign1} {cl : Http.Client}
    {kx : KeyExchange R.K} {ks : Http.Keys} {n6 : Bytes} {t : Trace (sig R)}
    (he : Prog.Ends (authenticate c A cr to1d .new : Step R _) t (.ok (cl, kx, ks, n6))) :
    cl.keys = none ∧ ∃ n5 iv reply rest p, t = hello cr n5 iv reply ++ rest ∧ Vetted c cr to1d n5 reply rest p ∧
      SessionKey rest p.kexA ks := by
  obtain ⟨n5, t1, t2, rfl, h1, h2⟩ := Proc.ends_bind he
  have h1 := ends_freshNonce h1
  subst h1
  obtain ⟨⟨cl1, s, p, n6'⟩, t3, t4, rfl, h3, h4⟩ := Proc.ends_bind h2
  obtain ⟨⟨cl2, s'⟩, u1, u2, rfl, g1, g2⟩ := Proc.ends_bind h3
  obtain ⟨iv, body, r, rfl, hx⟩ := ends_say g1
  obtain ⟨p', u3, u4, rfl, g3, g4⟩ := Proc.ends_bind g2
  obtain ⟨rfl, hch⟩ := ends_given g3
  obtain ⟨n6'', g5, g6⟩ := Proc.ends_some_bind g4
  obtain ⟨rfl, g7⟩ := Proc.ends_pure g6
  cases g7
  obtain ⟨⟨cl3, p2⟩, t5, t6, rfl, h5, h6⟩ := Proc.ends_bind h4
  obtain ⟨⟨cl4, es⟩, v1, v2, rfl, f1, f2⟩ := Proc.ends_bind h5
  obtain ⟨p3, v3, v4, rfl, f3, f4⟩ := Proc.ends_bind f2
  obtain ⟨rfl, hco⟩ := ends_given f3
  obtain ⟨rfl, f5⟩ := Proc.ends_pure f4
  cases f5
  obtain ⟨⟨kx', ks'⟩, t7, t8, rfl, h7, h8⟩ := Proc.ends_bind h6
  obtain ⟨rfl, h9⟩ := Proc.ends_pure h8
  cases h9
  obtain ⟨flag, d1, d2⟩ := Proc.ends_some_bind h7
  obtain ⟨k, w1, rfl, d3⟩ := Proc.ends_ask_bind d2
  obtain ⟨k', d4, d5⟩ := Proc.ends_some_bind d3
  have d4 : k = some k' := d4
  subst d4
  obtain ⟨key, w2, w3, rfl, d6, d7⟩ := Proc.ends_bind d5
  obtain ⟨rfl, hkey⟩ := ends_given d6
  obtain ⟨rfl, d8⟩ := Proc.ends_pure d7
  cases d8
  have hk1 : cl1.keys = none := hx.keys
  obtain ⟨e1, e2, e3, e4⟩ := entriesFrom_ok _ (got := []) hk1 rfl f1
  obtain ⟨c1, c2, _, c4, h, raw, c5, c6, c7, c8⟩ := checkHello_ok hch
  have hsz : p.header.length < 2 ^ 63 := by
    unfold parseProveHdr at c1
    obtain ⟨⟨a, _⟩, q1, c1⟩ := Res.bind_eq_ok.1 c1
    obtain ⟨hb, q2, c1⟩ := Res.bind_eq_ok.1 c1
    obtain ⟨_, _, c1⟩ := Res.bind_eq_ok.1 c1
    obtain ⟨_, _, c1⟩ := Res.bind_eq_ok.1 c1
    obtain ⟨_, _, c1⟩ := Res.bind_eq_ok.1 c1
    obtain ⟨_, _, c1⟩ := Res.bind_eq_ok.1 c1
    obtain ⟨_, _, c1⟩ := Res.bind_eq_ok.1 c1
    obtain ⟨_, _, c1⟩ := Res.bind_eq_ok.1 c1
    obtain ⟨_, _, c1⟩ := Res.bind_eq_ok.1 c1
    have e := congrArg Prod.fst (Res.ok.inj (show Res.ok _ = Res.ok _ from c1))
    subst e
    unfold getLeaf at q2
    split at q2
    · cases q2
    · next raw hr =>
      cases hk : R.E.decBytes raw with
      | none => rw [hk] at q2; cases q2
      | some x =>
        rw [hk] at q2
        cases q2
        exact S _ _ hk
  obtain ⟨rfl, ps, b1, b2, b3, b4⟩ := checkOwner_ok C hsz c1 c5 hco
  obtain ⟨q, hq, hdq⟩ := hx.reads
  rw [hk1] at hq
  cases hq
  have hs : parseSign1 R.E c r.body = .ok s := by
    unfold decToken at hdq
    split at hdq
    · next hh => cases hdq; exact hh
    · cases hdq
  have hbody : body = R.encHello ⟨cr.guid, n5, .ecdh384, .a256gcm, .es384, []⟩ := by
    have := hx.sent
    exact (Option.some.inj this).symm
  refine ⟨e1, n5, iv, r, v1 ++ [⟨.app .kex, some k'⟩], p2, ?_, ?_, ?_⟩
  · rw [hbody]
    simp [hello, Http.Client.new]
  · refine ⟨s, h, raw, es, ps, hs, c1, c2, c4, c5, c6, c7, c8, by simpa using e2, ?_, b1, b2, b3, b4⟩
    intro i e hi
    obtain ⟨tok, b, r, h, h'⟩ := e4 i e (Nat.zero_le _) hi
    exact ⟨tok, b, r, List.mem_append_left _ h, h'⟩
  · exact ⟨k', flag, key, by simp, liftD_ok hkey, rfl⟩

/-! ### Where deeds that matter happen -/

theorem light_iv : ¬ Weighty (R := R) .iv := id
theorem light_uuid : ¬ Weighty (R := R) (.app .uuid) := id
theorem light_error (s : Http.Sent) (h : s.type = .error) : ¬ Weighty (R := R) (.net s) := by
  rintro (h' | h' | h' | h') <;> rw [h] at h' <;> cases h'

/-- The deed is none of those. -/
def Light (e : (sig R).Eff) : Prop := ¬ Weighty e

theorem light_net {om : MsgType} (h : om ≠ .to2ProveDevice ∧ om ≠ .to2DeviceServiceInfoReady ∧ om ≠ .to2DeviceServiceInfo ∧
    om ≠ .to2Done) (s : Http.Sent) (hs : s.type = om) : Light (R := R) (.net s) := by
  obtain ⟨h1, h2, h3, h4⟩ := h
  rintro (h' | h' | h' | h') <;> rw [hs] at h'
  · exact h1 h'
  · exact h2 h'
  · exact h3 h'
  · exact h4 h'

theorem light_to1 {cr : Credential.Cred} {cl : Http.Client} : Prog.Only (S := sig R) Light (to1 c A cr cl : Step R _) :=
  Proc.only_bind (Proc.only_bind (only_say light_iv (light_net (by decide))) fun _ =>
    Proc.only_bind Proc.only_check fun _ => Proc.only_bind (only_signToken id) fun _ => Proc.only_pure) fun _ =>
  Proc.only_bind (only_say light_iv (light_net (by decide))) fun _ => Proc.only_pure

theorem light_entries : ∀ (k : Nat) {cl : Http.Client} {i : Nat} {got : List Bytes},
    Prog.Only (S := sig R) Light (entriesFrom (R := R) c A cl i got k)
  | 0, _, _, _ => Proc.only_pure
  | k + 1, _, _, _ => Proc.only_bind (only_say light_iv (light_net (by decide))) fun _ =>
      Proc.only_bind Proc.only_check fun _ => light_entries k

theorem light_authenticate {cr : Credential.Cred} {to1d : Sign1} {cl : Http.Client} :
    Prog.Only (S := sig R) Light (authenticate c A cr to1d cl : Step R _) :=
  Proc.only_bind (only_freshNonce id) fun _ =>
  Proc.only_bind (Proc.only_bind (only_say light_iv (light_net (by decide))) fun _ =>
    Proc.only_bind only_given fun _ => Proc.only_bind Proc.only_some? fun _ => Proc.only_pure) fun _ =>
  Proc.only_bind (Proc.only_bind (light_entries _) fun _ => Proc.only_bind only_given fun _ => Proc.only_pure) fun _ =>
  Proc.only_bind (Proc.only_bind Proc.only_some? fun _ => Proc.only_bind (Http.only_app (X := ops R) id) fun _ =>
    Proc.only_bind Proc.only_some? fun _ => Proc.only_bind only_given fun _ => Proc.only_pure) fun _ => Proc.only_pure

theorem light_getTo1d {cr : Credential.Cred} : ∀ us, Prog.Only (S := sig R) Light (getTo1d (R := R) c A cr us)
  | [] => Proc.only_pure
  | _ :: us => Proc.only_bind (Http.only_app (X := ops R) id) fun _ =>
      Proc.only_bind (Proc.only_attempt (only_reporting light_to1 light_uuid light_iv light_error)) fun s => match s with
        | some _ => Proc.only_pure
        | none => light_getTo1d us

/-- No new connection is made. -/
def Same (e : (sig R).Eff) : Prop := ∀ u, e ≠ .app (.connect u)

theorem same_iv : Same (R := R) .iv := nofun
theorem same_net (s : Http.Sent) : Same (R := R) (.net s) := nofun

theorem only_files {α : Type} {P : (sig R).Eff → Prop} (hP : ∀ o, P (.app (.fs o))) : ∀ p : Prog Fs.sig α, Prog.Only P (files p)
  | .ret _ => Prog.only_ret
  | .act _ k => Prog.only_act (hP _) fun a => only_files hP (k a)

theorem only_siRun {α : Type} {P : (sig R).Eff → Prop} (hP : ∀ m o, P (.app (.host m o))) (hiv : P .iv)
    (hs : ∀ s : Http.Sent, s.type = .to2DeviceServiceInfo → P (.net s)) :
    ∀ (p : Prog SiClient.sig α) (cl : Http.Client), Prog.Only P (siRun (R := R) A p cl)
  | .ret _, _ => Prog.only_ret
  | .act (.host m op) k, cl => Prog.only_act (hP m op) fun a => only_siRun hP hiv hs (k a) cl
  | .act (.exchange si) k, cl => by
    unfold siRun
    refine Prog.only_bind (Http.only_sendQ hiv hs) fun r => ?_
    match r with
    | .ok (cl, m) => exact only_siRun hP hiv hs (k (some m)) cl
    | .err (cl, _) => exact only_siRun hP hiv hs (k none) cl
    | .panic => exact Prog.only_ret

theorem only_serviceInfos {P : (sig R).Eff → Prop} {h : SiClient.Host} {cl : Http.Client} (hP : ∀ m o, P (.app (.host m o)))
    (hiv : P .iv) (hs : ∀ s : Http.Sent, s.type = .to2DeviceServiceInfo → P (.net s)) :
    Prog.Only P (serviceInfos (R := R) A h cl) :=
  Proc.only_bind (only_siRun hP hiv hs _ _) fun (_, r) => match r with
    | .ok _ => Proc.only_pure
    | .err _ => Proc.only_fail
    | .panic => Prog.only_ret

theorem same_entries : ∀ (k : Nat) {cl : Http.Client} {i : Nat} {got : List Bytes},
    Prog.Only (S := sig R) Same (entriesFrom (R := R) c A cl i got k)
  | 0, _, _, _ => Proc.only_pure
  | k + 1, _, _, _ => Proc.only_bind (only_say same_iv fun s _ => same_net s) fun _ =>
      Proc.only_bind Proc.only_check fun _ => same_entries k

theorem same_to2 {w : Credential.Surroundings} {h : SiClient.Host} {l : Credential.Location} {cr : Credential.Cred}
    {to1d : Sign1} {cl : Http.Client} : Prog.Only (S := sig R) Same (to2 c A w h l cr to1d cl : Step R _) :=
  Proc.only_bind (Proc.only_bind (only_freshNonce nofun) fun _ =>
    Proc.only_bind (Proc.only_bind (only_say same_iv fun s _ => same_net s) fun _ =>
      Proc.only_bind only_given fun _ => Proc.only_bind Proc.only_some? fun _ => Proc.only_pure) fun _ =>
    Proc.only_bind (Proc.only_bind (same_entries _) fun _ => Proc.only_bind only_given fun _ => Proc.only_pure) fun _ =>
    Proc.only_bind (Proc.only_bind Proc.only_some? fun _ => Proc.only_bind (Http.only_app (X := ops R) nofun) fun _ =>
      Proc.only_bind Proc.only_some? fun _ => Proc.only_bind only_given fun _ => Proc.only_pure) fun _ =>
      Proc.only_pure) fun _ =>
  Proc.only_bind (only_freshNonce nofun) fun _ =>
  Proc.only_bind (Proc.only_bind (only_signToken nofun) fun _ => Proc.only_bind (only_say same_iv fun s _ => same_net s) fun _ =>
    Proc.only_pure) fun _ =>
  Proc.only_bind (Proc.only_bind (only_say same_iv fun s _ => same_net s) fun _ => Proc.only_pure) fun _ =>
  Proc.only_bind (only_serviceInfos (fun _ _ => nofun) same_iv fun s _ => same_net s) fun _ =>
  Proc.only_bind (Proc.only_bind (Proc.only_mapErr (only_files (fun _ => nofun) _)) fun _ => Proc.only_mapErr (only_files (fun _ => nofun) _)) fun _ =>
  Proc.only_bind (Proc.only_bind (only_say same_iv fun s _ => same_net s) fun _ => Proc.only_check) fun _ => Proc.only_pure

theorem not_connected {α : Type} {p : Prog (sig R) α} (hp : Prog.Only Same p) {t : Trace (sig R)} (h : Prog.Does p t) (u : String) :
    connected u ∉ t := fun hm => hp t h _ hm u rfl

variable {w : Credential.Surroundings} {h : SiClient.Host} {l : Credential.Location} {cr : Credential.Cred} {to1d : Sign1}

/-- The loops and `main` around an attempt: `Q` says what is claimed of the attempt's trace. -/
theorem reaches_tryAddrs {d : (sig R).Deed} (hd : Weighty d.1) : ∀ (us : List String) (t : Trace (sig R)),
    Proc.Reaches (tryAddrs (R := R) c A w h l cr to1d us) t d →
    ∃ u ∈ us, ∃ pre mid, t = pre ++ connected u :: mid ∧ Proc.Reaches (to2 c A w h l cr to1d .new : Step R _) mid d := by
  intro us
  induction us with
  | nil => intro t ⟨u, hr⟩; exact absurd (Proc.does_pure hr) (by simp)
  | cons u us ih =>
    intro t hr
    rcases Proc.reaches_bind hr with hr1 | ⟨_, t1, t2, rfl, h1, hr1⟩
    · have := (Proc.reaches_ask hr1).2
      rw [this] at hd
      exact hd.elim
    obtain ⟨a, ha, rfl⟩ := Http.ends_app h1
    rcases Proc.reaches_bind hr1 with hr2 | ⟨b, u1, u2, rfl, h2, hr2⟩
    · refine ⟨u, by simp, [], t2, rfl, reaches_reporting ?_ ?_ ?_ (Proc.reaches_attempt hr2)⟩
      · intro e; rw [e] at hd; exact hd
      · intro e; rw [e] at hd; exact hd
      · intro s e hs; rw [e] at hd; exact light_error s hs hd
    · cases b with
      | some b => exact absurd (Proc.does_pure hr2.choose_spec) (by simp)
      | none =>
        obtain ⟨u', hu', pre, mid, rfl, hr2'⟩ := ih _ hr2
        exact ⟨u', by simp [hu'], connected u :: (u1 ++ pre), mid, congrArg (connected u :: ·) (List.append_assoc u1 pre _).symm, hr2'⟩

theorem ends_tryAddrs {b : Bool} : ∀ (us : List String) (t : Trace (sig R)),
    Prog.Ends (tryAddrs (R := R) c A w h l cr to1d us) t (.ok (some b)) →
    ∃ u ∈ us, ∃ pre mid, t = pre ++ connected u :: mid ∧ Prog.Ends (to2 c A w h l cr to1d .new : Step R _) mid (.ok b) := by
  intro us
  induction us with
  | nil => intro t he; cases (Proc.ends_pure he).2
  | cons u us ih =>
    intro t he
    obtain ⟨_, t1, t2, rfl, h1, he1⟩ := Proc.ends_bind he
    obtain ⟨a, ha, rfl⟩ := Http.ends_app h1
    obtain ⟨b', u1, u2, rfl, h2, he2⟩ := Proc.ends_bind he1
    cases b' with
    | some b' =>
      obtain ⟨rfl, hb⟩ := Proc.ends_pure he2
      cases hb
      exact ⟨u, by simp, [], u1, congrArg (connected u :: ·) (List.append_nil u1), ends_reporting (Proc.ends_attempt h2)⟩
    | none =>
      obtain ⟨u', hu', pre, mid, rfl, hr'⟩ := ih _ he2
      exact ⟨u', by simp [hu'], connected u :: (u1 ++ pre), mid, congrArg (connected u :: ·) (List.append_assoc u1 pre _).symm, hr'⟩

theorem redirected_getTo1d {s : Sign1} : ∀ (us : List String) (t : Trace (sig R)),
    Prog.Ends (getTo1d (R := R) c A cr us) t (.ok (some s)) → Redirected c t s := by
  intro us
  induction us with
  | nil => intro t he; cases (Proc.ends_pure he).2
  | cons u us ih =>
    intro t he
    obtain ⟨_, t1, t2, rfl, h1, he1⟩ := Proc.ends_bind he
    obtain ⟨s', u1, u2, rfl, h2, he2⟩ := Proc.ends_bind he1
    cases s' with
    | none =>
      obtain ⟨tok, b, r, hm, hs⟩ := ih _ he2
      exact ⟨tok, b, r, by simp [hm], hs⟩
    | some s' =>
      obtain ⟨rfl, hb⟩ := Proc.ends_pure he2
      cases hb
      have h2 := ends_reporting (Proc.ends_attempt h2)
      obtain ⟨⟨cl, tk⟩, v1, v2, rfl, g1, g2⟩ := Proc.ends_bind h2
      obtain ⟨⟨cl1, m⟩, v3, v4, rfl, g3, g4⟩ := Proc.ends_bind g1
      obtain ⟨iv, body, r, rfl, hx⟩ := ends_say g3
      obtain ⟨_, g5⟩ := Proc.ends_check_bind g4
      obtain ⟨tk', v5, v6, rfl, g6, g7⟩ := Proc.ends_bind g5
      obtain ⟨rfl, g8⟩ := Proc.ends_pure g7
      cases g8
      obtain ⟨⟨cl2, m2⟩, v7, v8, rfl, f1, f2⟩ := Proc.ends_bind g2
      obtain ⟨iv', body', r', rfl, hy⟩ := ends_say f1
      obtain ⟨rfl, f3⟩ := Proc.ends_pure f2
      cases f3
      obtain ⟨q, hq, hdq⟩ := hy.reads
      have hk : cl2.keys = none := by rw [hy.keys]; exact hx.keys
      rw [hk] at hq
      cases hq
      refine ⟨_, _, r', by simp; exact .inr (.inr (.inr (.inr (.inr rfl)))), ?_⟩
      unfold decToken at hdq
      split at hdq
      · next hh => cases hdq; exact hh
      · cases hdq

/-- The attempt `mid` at the end of `t` is with an owner whose address comes from a redirect blob. -/
def Led (c : Bool) (t mid : Trace (sig R)) (s : Sign1) : Prop :=
  ∃ pre u as, t = pre ++ connected u :: mid ∧ Redirected c pre s ∧ R.decAddrs s.payload = some as ∧ u ∈ to2Urls (R := R) as

theorem Led.prepend {t mid : Trace (sig R)} {s : Sign1} (x : Trace (sig R)) (hl : Led c t mid s) : Led c (x ++ t) mid s := by
  obtain ⟨pre, u, as, rfl, ⟨tok, b, r, hm, hs⟩, h2, h3⟩ := hl
  exact ⟨x ++ pre, u, as, by simp, ⟨tok, b, r, by simp [hm], hs⟩, h2, h3⟩

theorem reaches_tryEntries {d : (sig R).Deed} (hd : Weighty d.1) : ∀ (rv : List Rendezvous.Interp) (t : Trace (sig R)),
    Proc.Reaches (tryEntries (R := R) c A w h l cr rv) t d →
    ∃ s mid, Led c t mid s ∧ Proc.Reaches (to2 c A w h l cr s .new : Step R _) mid d := by
  intro rv
  induction rv with
  | nil => intro t ⟨u, hr⟩; exact absurd (Proc.does_pure hr) (by simp)
  | cons i rv ih =>
    intro t hr
    unfold tryEntries at hr
    split at hr
    · exact ih t hr
    next us hus =>
    obtain ⟨s, t1, t2, rfl, h1, hr1⟩ := Proc.reaches_after (light_getTo1d _) (not_not_intro hd) hr
    cases s with
    | none =>
      obtain ⟨s, mid, hl, hr1'⟩ := ih _ hr1
      exact ⟨s, mid, hl.prepend _, hr1'⟩
    | some s =>
      simp only at hr1
      split at hr1
      · obtain ⟨s, mid, hl, hr1'⟩ := ih _ hr1
        exact ⟨s, mid, hl.prepend _, hr1'⟩
      next as has =>
      rcases Proc.reaches_bind hr1 with hr2 | ⟨b, u1, u2, rfl, h2, hr2⟩
      · obtain ⟨u, hu, pre, mid, rfl, hr2'⟩ := reaches_tryAddrs hd _ _ hr2
        obtain ⟨tok, b, r, hm, hs⟩ := redirected_getTo1d _ _ h1
        exact ⟨s, mid, ⟨t1 ++ pre, u, as, by simp, ⟨tok, b, r, by simp [hm], hs⟩, has, hu⟩, hr2'⟩
      · cases b with
        | some b => exact absurd (Proc.does_pure hr2.choose_spec) (by simp)
        | none =>
          obtain ⟨s', mid, hl, hr2'⟩ := ih _ hr2
          exact ⟨s', mid, (hl.prepend u1).prepend t1, hr2'⟩

theorem ends_tryEntries {b : Bool} : ∀ (rv : List Rendezvous.Interp) (t : Trace (sig R)),
    Prog.Ends (tryEntries (R := R) c A w h l cr rv) t (.ok (some b)) →
    ∃ s mid, Led c t mid s ∧ Prog.Ends (to2 c A w h l cr s .new : Step R _) mid (.ok b) := by
  intro rv
  induction rv with
  | nil => intro t he; cases (Proc.ends_pure he).2
  | cons i rv ih =>
    intro t he
    unfold tryEntries at he
    split at he
    · exact ih t he
    next us hus =>
    obtain ⟨s, t1, t2, rfl, h1, he1⟩ := Proc.ends_bind he
    cases s with
    | none =>
      obtain ⟨s, mid, hl, hr'⟩ := ih _ he1
      exact ⟨s, mid, hl.prepend _, hr'⟩
    | some s =>
      simp only at he1
      split at he1
      · obtain ⟨s, mid, hl, hr'⟩ := ih _ he1
        exact ⟨s, mid, hl.prepend _, hr'⟩
      next as has =>
      obtain ⟨b', u1, u2, rfl, h2, he2⟩ := Proc.ends_bind he1
      cases b' with
      | some b' =>
        obtain ⟨rfl, hb⟩ := Proc.ends_pure he2
        cases hb
        obtain ⟨u, hu, pre, mid, rfl, hr'⟩ := ends_tryAddrs _ _ h2
        obtain ⟨tok, b, r, hm, hs⟩ := redirected_getTo1d _ _ h1
        exact ⟨s, mid, ⟨t1 ++ pre, u, as, by simp, ⟨tok, b, r, by simp [hm], hs⟩, has, hu⟩, hr'⟩
      | none =>
        obtain ⟨s', mid, hl, hr'⟩ := ih _ he2
        exact ⟨s', mid, (hl.prepend u1).prepend t1, hr'⟩

theorem reaches_onboard {d : (sig R).Deed} (hd : Weighty d.1) {rv : List Rendezvous.Interp} : ∀ (n : Nat) (t : Trace (sig R)),
    Proc.Reaches (onboard (R := R) c A w h l cr rv n) t d →
    ∃ s mid, Led c t mid s ∧ Proc.Reaches (to2 c A w h l cr s .new : Step R _) mid d := by
  intro n
  induction n with
  | zero => intro t ⟨u, hr⟩; exact absurd (Proc.does_fail hr) (by simp)
  | succ n ih =>
    intro t hr
    rcases Proc.reaches_bind hr with hr1 | ⟨b, t1, t2, rfl, h1, hr1⟩
    · exact reaches_tryEntries hd _ _ hr1
    · cases b with
      | some b => exact absurd (Proc.does_pure hr1.choose_spec) (by simp)
      | none =>
        rcases Proc.reaches_bind hr1 with hr2 | ⟨_, u1, u2, rfl, h2, hr2⟩
        · have := (Proc.reaches_ask hr2).2
          rw [this] at hd
          exact hd.elim
        · obtain ⟨s, mid, hl, hr2'⟩ := ih _ hr2
          exact ⟨s, mid, (hl.prepend u1).prepend t1, hr2'⟩

theorem ends_onboard {b : Bool} {rv : List Rendezvous.Interp} : ∀ (n : Nat) (t : Trace (sig R)),
    Prog.Ends (onboard (R := R) c A w h l cr rv n) t (.ok b) →
    ∃ s mid, Led c t mid s ∧ Prog.Ends (to2 c A w h l cr s .new : Step R _) mid (.ok b) := by
  intro n
  induction n with
  | zero => intro t he; exact (Proc.ends_fail he).elim
  | succ n ih =>
    intro t he
    obtain ⟨b', t1, t2, rfl, h1, he1⟩ := Proc.ends_bind he
    cases b' with
    | some b' =>
      obtain ⟨rfl, hb⟩ := Proc.ends_pure he1
      cases hb
      rw [List.append_nil]
      exact ends_tryEntries _ _ h1
    | none =>
      obtain ⟨_, u1, u2, rfl, h2, he2⟩ := Proc.ends_bind he1
      obtain ⟨s, mid, hl, hr'⟩ := ih _ he2
      exact ⟨s, mid, (hl.prepend u1).prepend t1, hr'⟩

theorem mem_to2Urls {as : List Addr} {u : String} (hu : u ∈ to2Urls (R := R) as) : ∃ a ∈ as, Names (R := R) a u := by
  obtain ⟨a, ha, hu⟩ := List.mem_flatMap.1 hu
  refine ⟨a, ha, ?_⟩
  have key : ∀ p : String, u ∈ to2Urls.urls (R := R) p a → ∃ host, (a.dns = some host ∨ ∃ ip, a.ip = some ip ∧ R.showIp ip = host) ∧
      u = p ++ "://" ++ host ++ ":" ++ toString a.port := by
    intro p hp
    rcases List.mem_append.1 hp with hp | hp
    · cases hd : a.dns with
      | none => rw [hd] at hp; cases hp
      | some n =>
        rw [hd] at hp
        exact ⟨n, .inl rfl, List.mem_singleton.1 hp⟩
    · cases hd : a.ip with
      | none => rw [hd] at hp; cases hp
      | some n =>
        rw [hd] at hp
        exact ⟨R.showIp n, .inr ⟨n, rfl, rfl⟩, List.mem_singleton.1 hp⟩
  cases hp : a.protocol with
  | http =>
    rw [hp] at hu
    obtain ⟨host, h1, h2⟩ := key _ hu
    exact ⟨"http", host, .inl ⟨hp, rfl⟩, h1, h2⟩
  | https =>
    rw [hp] at hu
    obtain ⟨host, h1, h2⟩ := key _ hu
    exact ⟨"https", host, .inr ⟨hp, rfl⟩, h1, h2⟩
  | other => rw [hp] at hu; cases hu

theorem ends_files_readCred {t : Trace (sig R)} {l : Credential.Location}
    (he : Prog.Ends (Proc.mapErr (fun _ => DevErr.io) (files (R := R) (Credential.readCred R.codec l))) t (.ok cr)) :
    ∃ b : Bytes, t = [⟨.app (.fs (.read l.path)), (some b : Option Bytes)⟩] ∧ R.codec.dec b = some cr := by
  have he := Proc.ends_mapErr he
  obtain ⟨a, t', ht, g⟩ := Prog.ends_act he
  cases ha : (a : Option Bytes) with
  | none =>
    have ha : a = none := ha
    subst ha
    cases (Prog.ends_ret g).2
  | some b =>
    have ha : a = some b := ha
    subst ha
    have g1 : Prog.Ends (files (R := R) (Proc.some? Credential.CredErr.parse (R.codec.dec b))) t' (.ok cr) := g
    refine ⟨b, ?_⟩
    cases hb : R.codec.dec b with
    | none =>
      rw [hb] at g1
      cases (Prog.ends_ret g1).2
    | some x =>
      rw [hb] at g1
      obtain ⟨rfl, hx⟩ := Prog.ends_ret g1
      cases hx
      exact ⟨ht, rfl⟩

theorem does_files_readCred {t : Trace (sig R)} {l : Credential.Location}
    (he : Prog.Does (Proc.mapErr (fun _ => DevErr.io) (files (R := R) (Credential.readCred R.codec l))) t) (d : (sig R).Deed)
    (hd : d ∈ t) : d.1 = .app (.fs (.read l.path)) := by
  have he := Proc.does_mapErr he
  obtain ⟨q, he⟩ := he
  rcases Prog.steps_act he with ⟨rfl, _⟩ | ⟨a, t', ht, g⟩
  · cases hd
  have : t' = [] := by
    cases ha : (a : Option Bytes) with
    | none =>
      have ha : a = none := ha
      subst ha
      exact (Prog.steps_ret g).1
    | some b =>
      have ha : a = some b := ha
      subst ha
      have g1 : Prog.Steps (files (R := R) (Proc.some? Credential.CredErr.parse (R.codec.dec b))) t' q := g
      cases hb : R.codec.dec b <;> rw [hb] at g1 <;> exact (Prog.steps_ret g1).1
  rw [ht, this] at hd
  rw [List.mem_singleton.1 hd]

/-- What `main` has checked before the attempts. -/
theorem attempt_of {t t1 t2 mid : Trace (sig R)} {s : Sign1} {b : Bytes} (hf : Credential.find w = some (.ok l))
    (hm : w.exists? (markerPath w) = false) (h1 : t1 = [⟨.app (.fs (.read l.path)), (some b : Option Bytes)⟩])
    (hb : R.codec.dec b = some cr) (ha : cr.active = true) (hv : cr.version = 101) (hl : Led c t2 mid s)
    (hn : ∀ u, connected u ∉ mid) (ht : t = t1 ++ t2) : Attempt c w l cr s t mid := by
  obtain ⟨pre, u, as, rfl, ⟨tok, x, r, hmem, hs⟩, h2, h3⟩ := hl
  obtain ⟨a, ha', hu⟩ := mem_to2Urls h3
  exact ⟨t1 ++ pre, u, as, a, by simp [ht], hn, hm, hf, ⟨b, by simp [h1], hb⟩, ha, hv, ⟨tok, x, r, by simp [hmem], hs⟩, h2, ha', hu⟩

theorem reaches_main {d : (sig R).Deed} (hd : Weighty d.1) {n : Nat} {t : Trace (sig R)}
    (hr : Proc.Reaches (main (R := R) c A w h n) t d) :
    ∃ l cr s mid, Attempt c w l cr s t mid ∧ Proc.Reaches (to2 c A w h l cr s .new : Step R _) mid d := by
  unfold main at hr
  split at hr
  · rcases Proc.reaches_bind hr with hr1 | ⟨_, _, _, _, _, hr1⟩
    · have := (Proc.reaches_ask hr1).2
      rw [this] at hd
      exact hd.elim
    · exact absurd (Proc.does_check hr1.choose_spec) (by simp)
  next hm =>
  split at hr
  · exact absurd (Proc.does_pure hr.choose_spec) (by simp)
  · exact absurd (Proc.does_fail hr.choose_spec) (by simp)
  · exact absurd (Prog.steps_ret hr.choose_spec.choose_spec).1 (by simp)
  next l hf =>
  rcases Proc.reaches_bind hr with hr2 | ⟨cr, t1, t2, rfl, h1, hr2⟩
  · have := does_files_readCred hr2.choose_spec d (by simp)
    rw [this] at hd
    exact hd.elim
  obtain ⟨b, h1, hb⟩ := ends_files_readCred h1
  unfold start at hr2
  split at hr2
  · exact absurd (Proc.does_pure hr2.choose_spec) (by simp)
  next ha =>
  split at hr2
  · exact absurd (Proc.does_fail hr2.choose_spec) (by simp)
  next hv =>
  rcases Proc.reaches_bind hr2 with hr3 | ⟨rv, u1, u2, rfl, h2, hr3⟩
  · exact absurd (Proc.does_lift hr3.choose_spec) (by simp)
  obtain ⟨rfl, h2⟩ := Proc.ends_lift h2
  rcases Proc.reaches_bind hr3 with hr4 | ⟨b', u1, u3, rfl, h3, hr4⟩
  · obtain ⟨s, mid, hl, hr4'⟩ := reaches_onboard hd _ _ hr4
    refine ⟨l, cr, s, mid, attempt_of hf (by simpa using hm) h1 hb (by simpa using ha) (by simpa using hv) hl ?_ (by simp), hr4'⟩
    obtain ⟨x, q, hx⟩ := hr4'
    obtain ⟨q', hx, _⟩ := Prog.steps_split hx
    exact not_connected same_to2 ⟨q', hx⟩
  · cases b' with
    | false => exact absurd (Proc.does_pure hr4.choose_spec) (by simp)
    | true =>
      rcases Proc.reaches_bind hr4 with hr5 | ⟨r, v1, v2, rfl, h4, hr5⟩
      · have := (Proc.reaches_ask hr5).2
        rw [this] at hd
        exact hd.elim
      · obtain ⟨r', q, hr6⟩ := hr5
        cases (r : Option Bool) with
        | none => exact absurd (Prog.steps_ret hr6).1 (by simp)
        | some ok => exact absurd (Proc.does_check ⟨q, hr6⟩) (by simp)

/-- Attempts of TO2: what matters happens after the owner was vetted. -/
theorem reaches_to2 {d : (sig R).Deed} (hd : Weighty d.1) {cl : Http.Client} {t : Trace (sig R)}
    (hr : Proc.Reaches (to2 c A w h l cr to1d cl : Step R _) t d) :
    ∃ cl' kx ks n6 n7 u v, t = u ++ ⟨.app .nonce, (some n7 : Option Bytes)⟩ :: v ∧
      Prog.Ends (authenticate c A cr to1d cl : Step R _) u (.ok (cl', kx, ks, n6)) ∧
      Proc.Reaches (do
        let cl ← proveDevice c A cr cl' kx n6 n7 ks
        let cl ← ready A cl
        let (cl, b) ← serviceInfos A h cl
        settle w l cl
        done A cl n6 n7
        pure b : Step R Bool) v d := by
  obtain ⟨⟨cl', kx, ks, n6⟩, u, v, rfl, h1, g1⟩ := Proc.reaches_after light_authenticate (not_not_intro hd) hr
  obtain ⟨n7, v1, v2, rfl, h2, g2⟩ := Proc.reaches_after (P := Light) (only_freshNonce id) (not_not_intro hd) g1
  have h2 := ends_freshNonce h2
  subst h2
  exact ⟨cl', kx, ks, n6, n7, u, v2, rfl, h1, g2⟩

/-- **C46**: whatever the network and the host do, when the client acts on service info, changes files, proves its identity to a
server, asks for service info or confirms onboarding, then before that, in the same attempt and with the same server, the owner
was vetted: see `Vetted`. -/
theorem C46_vetted (C : CodecLaws R.E) (S : Sized R) (n : Nat) (t : Trace (sig R)) (d : (sig R).Deed)
    (hr : Proc.Reaches (main (R := R) c A w h n) t d) (hd : Weighty d.1) :
    ∃ l cr to1d n5 iv reply rest p, Attempt c w l cr to1d t (hello cr n5 iv reply ++ rest) ∧
      Vetted c cr to1d n5 reply rest p := by
  obtain ⟨l, cr, s, mid, ha, hr⟩ := reaches_main hd hr
  obtain ⟨cl', kx, ks, n6, n7, u, v, rfl, h1, -⟩ := reaches_to2 hd hr
  obtain ⟨-, n5, iv, reply, rest, p, rfl, hv, -⟩ := authenticate_ok C S h1
  refine ⟨l, cr, s, n5, iv, reply, rest ++ ⟨.app .nonce, (some n7 : Option Bytes)⟩ :: v, p, by simpa using ha, ?_⟩
  obtain ⟨s, h, key, es, ps, a1, a2, a3, a4, a5, a6, a7, a8, a9, a10, a11⟩ := hv
  refine ⟨s, h, key, es, ps, a1, a2, a3, a4, a5, a6, a7, a8, a9, fun i e hi => ?_, a11⟩
  obtain ⟨tok, b, r, h, h'⟩ := a10 i e hi
  exact ⟨tok, b, r, List.mem_append_left _ h, h'⟩

end Verif.Device
