import Verif.Spec.MfgRun
import Verif.Lemmas.MfgClient
import Verif.Lemmas.Talk
import Verif.Props.MfgKept
/-!
Runs of the manufacturing client against the manufacturing server.
-/
namespace Verif.MfgClient
open Verif Verif.Voucher Verif.Types Verif.MfgServer Verif.Fs
variable {R : ClientEnv}

/-! ### Deeds of the client -/

/-- Neither a request nor writing to a file. -/
def Idle (e : (sig R).Eff) : Prop := (∀ s, e ≠ .net s) ∧ ∀ o, e = .app (.fs o) → ∃ p, o = .read p

theorem idle_quiet : Quiet (R := R) Idle := by
  refine ⟨⟨nofun, nofun⟩, fun e he => ⟨nofun, ?_⟩⟩
  intro o ho
  cases ho
  cases o <;> first | exact ⟨_, rfl⟩ | exact he.elim

/-- A trace of idle deeds. -/
def Idles (t : Trace (sig R)) : Prop := ∀ d ∈ t, Idle d.1

theorem Idles.silent {t : Trace (sig R)} (h : Idles t) : ∀ d ∈ t, Http.Silent d := fun d hd => (h d hd).1

theorem idles_of {ε α : Type} {p : Proc (sig R) ε α} (hp : Prog.Only Idle p) {t : Trace (sig R)} {r : Res ε α}
    (h : Prog.Ends p t r) : Idles t := hp t ⟨_, h⟩

theorem Idles.append {t u : Trace (sig R)} (h : Idles t) (h' : Idles u) : Idles (t ++ u) := fun d hd =>
  (List.mem_append.mp hd).elim (h d) (h' d)

theorem Idles.nil : Idles (R := R) [] := fun _ h => absurd h List.not_mem_nil

/-- Idle deeds do not change files. -/
theorem Idles.files {t : Trace (sig R)} (h : Idles t) {s s' : Files} (hr : Fs.Run s (fileDeeds t) s') : s' = s := by
  induction t generalizing s with
  | nil => cases hr; rfl
  | cons d t ih =>
    have ht : Idles t := fun d hd => h d (List.mem_cons_of_mem _ hd)
    have hd := h d List.mem_cons_self
    unfold fileDeeds at hr
    cases hf : fileDeed d with
    | none =>
      rw [List.filterMap_cons_none hf] at hr
      exact ih ht hr
    | some x =>
      rw [List.filterMap_cons_some hf] at hr
      obtain ⟨e, a⟩ := d
      cases e with
      | iv => cases hf
      | net s => cases hf
      | app e =>
        cases e with
        | fs o =>
          cases hf
          obtain ⟨p, rfl⟩ := hd.2 o rfl
          cases hr with
          | cons h1 h2 =>
            cases h1 with
            | read _ => exact ih ht h2
            | readFails => exact ih ht h2
        | _ => cases hf

/-- The credential written by `di`. -/
def newCred (R : ClientEnv) (h : Header R.E) (kh : Hash) (ks : Credential.KeyStorage) : Credential.Cred :=
  { active := true, version := 101, info := h.deviceInfo.toList, guid := h.guid, rvinfo := R.E.encRv h.rv, keyHash := kh,
    keys := ks }

/-- The deeds of a successful DI. -/
structure DiRun (c : Bool) (A : Http.Aead) (w : Credential.Surroundings) (cl : Http.Client) (k : KeyRef R) (t : Trace (sig R))
    (info : String) (h : Header R.E) (hb : Bytes) (hmac kh : Hash) (ks : Credential.KeyStorage) (p : Path) : Prop where
  run : ∃ t0 iv body r cl1 t1 iv2 body2 r2 cl2,
    t = t0 ++ (⟨.iv, iv⟩ :: ⟨.net ⟨.diAppStart, cl.token, body⟩, some r⟩ :: (t1 ++
      (⟨.app (.fs (.create p)), true⟩ :: ⟨.app (.fs (.append p (R.codec.enc (newCred R h kh ks)))), true⟩ ::
        ⟨.iv, iv2⟩ :: ⟨.net ⟨.diSetHmac, cl1.token, body2⟩, some r2⟩ :: []))) ∧
    Idles t0 ∧ Idles t1 ∧ Prog.Ends (hmacOf k hb) t1 (.ok hmac) ∧
    Http.Exchanged A (decHeader (R := R) c) cl cl1 .diAppStart .diSetCredentials (R.encAppStart info) iv none body r h ∧
    Http.Exchanged A R.decDiDone cl1 cl2 .diSetHmac .diDone (R.encSetHmac hmac) iv2 none body2 r2 ()
  bytes : h.serialize R.E = .ok hb
  keyHash : mfgKeyHash h .sha384 = .ok kh
  keys : k.toStorage = some ks
  path : credPath w = .ok p

theorem ends_save {w : Credential.Surroundings} {k : KeyRef R} {info : String} {g : Bytes} {rv : R.E.Rv} {kh : Hash}
    {t : Trace (sig R)} (h : Prog.Ends (save w k info g rv kh) t (.ok ())) :
    ∃ ks p, k.toStorage = some ks ∧ credPath w = .ok p ∧
      t = [⟨.app (.fs (.create p)), true⟩, ⟨.app (.fs (.append p (R.codec.enc
        { active := true, version := 101, info := info.toList, guid := g, rvinfo := R.E.encRv rv, keyHash := kh,
          keys := ks }))), true⟩] := by
  obtain ⟨ks, hk, g1⟩ := Proc.ends_some_bind h
  obtain ⟨p, hp, g2⟩ := Proc.ends_lift_bind g1
  obtain ⟨ok, t1, rfl, g3⟩ := Proc.ends_ask_bind g2
  obtain ⟨h1, g4⟩ := Proc.ends_check_bind g3
  obtain ⟨ok2, t2, rfl, g5⟩ := Proc.ends_ask_bind g4
  obtain ⟨rfl, h2⟩ := Proc.ends_check g5
  have h1 : ok = true := h1
  have h2 : ok2 = true := h2
  subst h1 h2
  exact ⟨ks, p, hk, hp, rfl⟩

theorem ends_di {c : Bool} {A : Http.Aead} {w : Credential.Surroundings} {cl : Http.Client} {k : KeyRef R} {ty : MfgString}
    {i : Option (List Char)} {t : Trace (sig R)} (h : Prog.Ends (di c A w cl k ty i) t (.ok ())) :
    ∃ info hd hb hmac kh ks p, DiRun c A w cl k t info hd hb hmac kh ks p := by
  obtain ⟨info, t0, u0, rfl, h0, g0⟩ := Proc.ends_bind h
  obtain ⟨⟨cl1, hd⟩, t1, u1, rfl, h1, g1⟩ := Proc.ends_bind g0
  obtain ⟨hb, h2, g2⟩ := Proc.ends_lift_bind g1
  obtain ⟨hmac, t3, u3, rfl, h3, g3⟩ := Proc.ends_bind g2
  obtain ⟨kh, h4, g4⟩ := Proc.ends_lift_bind g3
  obtain ⟨_, t5, u5, rfl, h5, g5⟩ := Proc.ends_bind g4
  obtain ⟨⟨cl2, _⟩, t6, u6, rfl, h6, g6⟩ := Proc.ends_bind g5
  obtain ⟨rfl, _⟩ := Proc.ends_pure g6
  obtain ⟨iv, body, r, rfl, e1⟩ := Http.ends_send h1
  obtain ⟨iv2, body2, r2, rfl, e2⟩ := Http.ends_send h6
  obtain ⟨ks, p, h7, h8, rfl⟩ := ends_save h5
  exact ⟨info, hd, hb, hmac, kh, ks, p,
    ⟨t0, iv, body, r, cl1, t3, iv2, body2, r2, cl2, by simp [newCred], idles_of (only_mfgInfo idle_quiet _ _ _) h0,
      idles_of (only_hmacOf idle_quiet _ _) h3, h3, e1, e2⟩, liftD_ok h2, liftD_ok h4, h7, h8⟩

/-- The device accepts the HMAC it computed. -/
theorem hmac_accepted {k : KeyRef R} {hb : Bytes} {t : Trace (sig R)} {hmac : Hash} {ks : Credential.KeyStorage}
    (h : Prog.Ends (hmacOf k hb) t (.ok hmac)) (hk : k.toStorage = some ks) (hf : TpmFits t) :
    ks.performHmac R.H hb hmac.type = .ok hmac := by
  cases k with
  | fs sign key =>
    simp only [KeyRef.toStorage, Option.map_eq_some_iff] at hk
    obtain ⟨d, _, rfl⟩ := hk
    obtain ⟨_, h1⟩ := Prog.ends_ret h
    have h1 := liftD_ok h1
    have h2 := h1
    unfold Hash.fromDigest at h2
    split at h2
    · cases h2
    cases h2
    exact h1
  | tpm a b cc d =>
    cases hk
    obtain ⟨r, t1, rfl, g1⟩ := Proc.ends_ask_bind h
    obtain ⟨x, hx, g2⟩ := Proc.ends_some_bind g1
    obtain ⟨_, h1⟩ := Prog.ends_ret g2
    have hr := hf _ _ _ r List.mem_cons_self
    have hx : r = some x := hx
    subst hx
    simp only [Credential.KeyStorage.performHmac, ← hr]
    exact liftD_ok h1

theorem verifies {k : KeyRef R} {hb : Bytes} {t : Trace (sig R)} {hmac : Hash} {ks : Credential.KeyStorage}
    (h : Prog.Ends (hmacOf k hb) t (.ok hmac)) (hk : k.toStorage = some ks) (hf : TpmFits t) (cr : Credential.Cred)
    (hc : cr.keys = ks) : cr.verifyHmac R.H hb hmac = .ok () := by
  unfold Credential.Cred.verifyHmac
  rw [hc, hmac_accepted h hk hf]
  exact compare_ok.mpr rfl

/-! ### The server's side -/

section
variable {c : Bool} {B : MStore} {cfg : Config R.toMfgEnv}
  {Id : Type} [DecidableEq Id] {idOf : List Char → Option Id} {aead : Http.Aead} {encode : Resp → Bytes}

local notation "Srv" => server R.toMfgEnv c B cfg Id idOf aead encode
local notation "Reached" => reached R.toMfgEnv c B cfg idOf aead encode
local notation "Histories" => Hist R.toMfgEnv c B cfg idOf aead encode

theorem prepared_reads {R : MfgEnv} {cfg : Config R} (L : Laws R cfg) {s : Data R} {info : String} {der g hb : Bytes}
    (p : Prepared R cfg s info der g hb) (hsz : hb.length < 2 ^ 63) :
    ∃ pub ch, R.certPub cfg.mfgCert = some pub ∧
      Header.deserialize R.E c hb = .ok (Header.new R.E 101 g cfg.rv (R.trim info) pub ch) ∧
      Header.serialize R.E (Header.new R.E 101 g cfg.rv (R.trim info) pub ch) = .ok hb := by
  obtain ⟨hex, ca, dev, f, key, ds, pub, hca, hch, hbuild, hfi, hfs, hfk, hkey, hds, hpub, hgl, hser⟩ := p
  have hser' := hser
  unfold Header.serialize at hser'
  split at hser'
  · cases hser'
  rename_i hinfo
  have hcs : Cbor.serialize (Header.new R.E 101 g cfg.rv (R.trim info) pub
      (some ⟨.sha384, R.E.digest .sha384 ds.flatten⟩)).contents = .ok hb := by
    cases hs : Cbor.serialize (Header.new R.E 101 g cfg.rv (R.trim info) pub
      (some ⟨.sha384, R.E.digest .sha384 ds.flatten⟩)).contents with
    | ok x => rw [hs] at hser'; cases hser'; rfl
    | err e => rw [hs] at hser'; cases hser'
    | panic => rw [hs] at hser'; cases hser'
  have hmem : ∀ x ∈ (Header.new R.E 101 g cfg.rv (R.trim info) pub
      (some ⟨.sha384, R.E.digest .sha384 ds.flatten⟩)).contents.contents, x.length < 2 ^ 63 := by
    intro x hx
    have := serialize_mem hcs hx
    omega
  have hsmall : SmallHeader R.E cfg.rv (R.trim info) pub (some ⟨.sha384, R.E.digest .sha384 ds.flatten⟩) :=
    ⟨hmem _ (by simp [Header.new]), hmem _ (by simp [Header.new]), hmem _ (by simp [Header.new]),
      hmem _ (by simp [Header.new])⟩
  have hwf := headerWf_new L.leaf (.inr rfl) hgl (by simp only [Header.new] at hinfo; simpa using hinfo) hsmall
  obtain ⟨hb2, hr1, hr2⟩ := header_roundtrip (c := c) hwf []
  rw [List.append_nil] at hr2
  rw [hcs] at hr1
  cases hr1
  exact ⟨pub, _, hpub, hr2, hser⟩

/-- Answer of the server to AppStart. -/
theorem app_started (W : Wire R cfg encode) {o : Oracle R.toMfgEnv} {info : String} {req : Req} {s : Data R.toMfgEnv}
    {k : Option Http.Keys} {w w' : B.W} {resp : Resp} {data : Data R.toMfgEnv} {keys : Option Http.Keys}
    (hd : decode R.toMfgEnv .diAppStart (R.encAppStart info) = some req)
    (hh : (Srv).handle o .diAppStart req s k w = (w', some (resp, data, keys))) :
    keys = k ∧ ∃ der g hb, resp = .setCredentials hb ∧ Prepared R.toMfgEnv cfg data info der g hb ∧
      deviceKeyDer R.toMfgEnv cfg o info s = .ok der := by
  obtain ⟨raw, hw1, rfl⟩ := Option.map_eq_some_iff.1 (show (R.decAppStart (R.encAppStart info)).map Req.appStart = some req from hd)
  rw [server_handle] at hh
  simp only [Prod.mk.injEq] at hh
  obtain ⟨hx, hk⟩ := keep_ok (answer_some hh.2)
  obtain ⟨info', der, g, hb, _, hi, hder, hg, hr, hp, _⟩ := appStart_ok hx
  cases W.appStart _ _ _ hw1 hi
  exact ⟨hk, der, g, hb, hr, hp, hder⟩

/-- DI: the voucher and the credential match. -/
theorem di_talk {Inv : B.W → Prop} {Has : B.W → Store.Name → Bytes → Prop} (K : KeepStore B Inv Has) (L : Laws R.toMfgEnv cfg)
    (st : Settings R.toMfgEnv) (hst : startup R.toMfgEnv st = some cfg) (W : Wire R cfg encode) (hO : Http.Opens aead)
    {kdf : Http.Request Srv → Bool} {cl : Http.Client} {i : Option Id} {s : Http.Sess Srv} {p h : Histories}
    (hsm : SmallHeaders R.toMfgEnv c B cfg idOf aead encode (p ++ h))
    (hid : FreshIds R.toMfgEnv c B cfg idOf aead encode (p ++ h))
    (hg : ((p ++ h).filterMap (drawn R.toMfgEnv c B cfg idOf aead encode)).Nodup)
    (hs : Http.Sync (Reached p) cl i s) {w : Credential.Surroundings} {k : KeyRef R} {t : Trace (sig R)} {info : String}
    {hd : Header R.E} {hb : Bytes} {hmac kh : Hash} {ks : Credential.KeyStorage} {path : Path}
    (hrun : DiRun c aead w cl k t info hd hb hmac kh ks path) (hf : TpmFits t)
    (ht : Http.Talk (move B) (Http.start B.empty) kdf i p h t) :
    ∃ der v b, (∀ now, (B.load now (Reached (p ++ h)).world (Store.guidText hd.guid)).2 = .ok (some b)) ∧
      (b.length < 2 ^ 63 → deserialize c b = .ok (v, []) ∧ Matches (newCred R hd kh ks) v ∧
        Certifies R.toMfgEnv cfg v info der ∧ OwnedAsConfigured R.toMfgEnv c cfg v ∧ Canonical c v ∧
        v.header.rv = cfg.rv) ∧
      (∀ d, s.data.deviceKey = some d → der = d) ∧ hd.guid.length = 16 ∧ hd.rv = cfg.rv := by
  obtain ⟨⟨t0, iv, body, r, cl1, t1, iv2, body2, r2, cl2, rfl, q0, q1, hmac', e1, e2⟩, hbytes, hkh, hks, hpath⟩ := hrun
  obtain ⟨h1, h2, rfl, u1, ht1⟩ := Http.talk_quiet q0.silent ht
  have hs1 := hs.move u1
  obtain ⟨h3, rq, h4, a, w1, resp, data, keys, rfl, ha, hty, hom, hsess, hbody, hdec, hhand, hstep, _, hsync, _, ht2⟩ :=
    Http.talk_exchange (Sv := Srv) rfl hO e1 hs1 ht1
  obtain ⟨rfl, der, g, hb', rfl, hprep, hder⟩ := app_started W hdec hhand
  have hk1 : cl1.keys = cl.keys := e1.keys
  obtain ⟨hread, hs2⟩ := hsync (by rw [hk1, hs1.keys])
  have hsil : ∀ d ∈ t1 ++ [⟨.app (.fs (.create path)), true⟩,
      ⟨.app (.fs (.append path (R.codec.enc (newCred R hd kh ks)))), true⟩], Http.Silent (X := ops R) d := by
    intro d hd
    rcases List.mem_append.mp hd with hd | hd
    · exact q1.silent d hd
    · rcases List.mem_cons.mp hd with rfl | hd
      · exact Http.silent_app _ _
      · rcases List.mem_cons.mp hd with rfl | hd
        · exact Http.silent_app _ _
        · exact absurd hd List.not_mem_nil
  rw [show ∀ x y z, t1 ++ (⟨.app (.fs (.create path)), true⟩ ::
      ⟨.app (.fs (.append path (R.codec.enc (newCred R hd kh ks)))), true⟩ :: x :: y :: z) =
      (t1 ++ [⟨.app (.fs (.create path)), true⟩,
        ⟨.app (.fs (.append path (R.codec.enc (newCred R hd kh ks)))), true⟩]) ++ (x :: y :: z : Trace (sig R))
      from fun x y z => by simp] at ht2
  obtain ⟨h5, h6, rfl, u2, ht3⟩ := Http.talk_quiet hsil ht2
  have hs3 := hs2.move u2
  obtain ⟨h7, rq2, h8, a2, w2, resp2, data2, keys2, rfl, ha2, hty2, hom2, hsess2, hbody2, hdec2, hhand2, hstep2, _⟩ :=
    Http.talk_exchange (Sv := Srv) rfl hO e2 hs3 ht3
  have hall : p ++ (h1 ++ (h3 ++ .request rq :: (h5 ++ (h7 ++ .request rq2 :: h8)))) =
      (p ++ h1 ++ h3 ++ [.request rq] ++ h5 ++ h7) ++ .request rq2 :: h8 := by simp
  rw [hall] at hsm hid hg ⊢
  obtain ⟨a3, m, info3, der3, g3, hb3, v, b, ha3, hreq3, _, _, hprep3, hsz3, hsv, hser, hload⟩ :=
    kept K L _ rq2 h8 hsm hid hg _ _ hstep2
  have ha23 : a3 = a2 := Option.some.inj (ha3.symm.trans ha2)
  subst ha23
  rw [hsess2] at hsv hprep3
  have hm : m = hmac := by
    have hdec2 : decode R.toMfgEnv .diSetHmac (R.encSetHmac hmac) = some a3.req := hdec2
    obtain ⟨m', h1, h2⟩ := Option.map_eq_some_iff.1 (show (R.decSetHmac (R.encSetHmac hmac)).map Req.setHmac = some a3.req from hdec2)
    rw [hreq3] at h2
    cases h2
    exact W.setHmac _ _ h1
  subst hm
  have hhb : hb3 = hb' := by
    have h1 : data.header = some (hexEncode hb3) := hprep3.hex
    rw [hprep.hex] at h1
    have h2 := congrArg Types.hexDecode (Option.some.inj h1)
    rw [Types.hexDecode_encode, Types.hexDecode_encode] at h2
    exact (Option.some.inj h2).symm
  subst hhb
  have hpair : cfg.mfgKey.isNone = cfg.owner.isNone := by
    obtain ⟨_, _, _, _, hp, _⟩ := startup_some hst
    exact hp
  obtain ⟨rfl, hgl⟩ := prepared_guid (c := c) L hprep hsz3 hsv
  obtain ⟨pub, ch, hpub, hrd, hsr⟩ := prepared_reads (c := c) L hprep hsz3
  have hhd : hd = Header.new R.E 101 g3 cfg.rv (R.trim info) pub ch := by
    have hread : decHeader c (encode (.setCredentials hb3)) = some hd := hread
    rw [W.header] at hread
    unfold decHeader at hread
    rw [hrd] at hread
    exact (Option.some.inj hread).symm
  subst hhd
  rw [hsr] at hbytes
  cases hbytes
  refine ⟨der, v, b, hload, ?_, ?_, hgl, rfl⟩
  · intro hbsz
    obtain ⟨_, _, hrd, p1, p2, p3, p4, p5, p6, p7, p8, p9⟩ := issued (c := c) L hpair hprep hsz3 hsv hser hbsz
    refine ⟨hrd, ⟨rfl, rfl, p1.symm, ?_, ?_, ?_, hb, p3, ?_⟩, p7, p8, p9, p5⟩
    · rw [p4]; rfl
    · rw [p5]; rfl
    · have hk : v.header.mfgKey = pub := Option.some.inj (p8.1.symm.trans hpub)
      rw [hk]
      have hkh : R.E.hashData .sha384 (R.E.encPub pub) = .ok kh := hkh
      exact (hashData_ok.1 hkh).2
    · rw [p6]
      exact verifies hmac' hks (fun pub priv data r hr => hf pub priv data r
        (List.mem_append_right _ (.tail _ (.tail _ (List.mem_append_left _ hr)))))
        (newCred R (Header.new R.E 101 g3 cfg.rv (R.trim info) pub ch) kh ks) rfl
  · intro d hdk
    rcases deviceKeyDer_ok hder with h | ⟨h, _⟩
    · rw [hdk] at h
      exact (Option.some.inj h).symm
    · rw [hdk] at h
      cases h

/-- Answer of the server to Connect. -/
theorem connected (W : Wire R cfg encode) {o : Oracle R.toMfgEnv} {m : Connect} {req : Req} {s : Data R.toMfgEnv}
    {k : Option Http.Keys} {w w' : B.W} {resp : Resp} {data : Data R.toMfgEnv} {keys : Option Http.Keys}
    (hd : decode R.toMfgEnv .diunConnect (R.encConnect m) = some req)
    (hh : (Srv).handle o .diunConnect req s k w = (w', some (resp, data, keys))) :
    keys = k ∧ ∃ d key random sk token, cfg.diun = some d ∧ o.kex = some (key, random) ∧
      (OwnerServer.newKex m.kex key random).deriveKey .owner m.cipher o.nonInterop m.keyExchange = .ok sk ∧
      acceptToken R.toMfgEnv d m.nonce (OwnerServer.newKex m.kex key random).getPublic = .ok token ∧
      resp = .accept token ∧ data.diunKeys = some ⟨m.cipher, sk⟩ := by
  obtain ⟨m', h1, rfl⟩ := Option.map_eq_some_iff.1 (show (R.decConnect (R.encConnect m)).map Req.connect = some req from hd)
  cases W.connect _ _ h1
  clear h1 hd
  rw [server_handle] at hh
  simp only [Prod.mk.injEq] at hh
  obtain ⟨hx, hk⟩ := keep_ok (answer_some hh.2)
  refine ⟨hk, ?_⟩
  unfold connect at hx
  split at hx
  · cases hx
  rename_i d hd
  split at hx
  · cases hx
  rename_i key random hkx
  simp only [Res.bind_eq_ok] at hx
  obtain ⟨sk, h1, token, h2, h3⟩ := hx
  cases h3
  exact ⟨d, key, random, sk, token, hd, hkx, h1, h2, rfl, rfl⟩

/-- The payload of the Accept token. -/
theorem token_payload (L : CodecLaws R.E) (W : Wire R cfg encode) {d : Diun R.toMfgEnv} (hd : cfg.diun = some d)
    {n x token : Bytes} (hx : x.length < 2 ^ 32) (ht : acceptToken R.toMfgEnv d n x = .ok token) {s : Sign1}
    (hs : decToken (R := R) c token = some s) : s.payload = R.encAccept x := by
  unfold acceptToken at ht
  rw [Res.bind_eq_ok] at ht
  obtain ⟨⟨prot, sg⟩, h1, h2⟩ := ht
  have h1 := ofOpt_eq_ok.1 h1
  obtain ⟨l1, l2⟩ := W.sizes d n x prot sg hd h1
  have l3 := W.payload x hx
  have hit : ∀ i ∈ [R.E.encBytes prot, R.encKeyUnprot d.pub, R.E.encBytes (R.encAccept x), R.E.encBytes sg],
      Cbor.Spec.IsItem i := by
    intro i hi
    simp only [List.mem_cons, List.not_mem_nil, or_false] at hi
    rcases hi with rfl | rfl | rfl | rfl
    · exact L.bytes_item _ l1
    · exact W.keyUnprot d hd
    · exact L.bytes_item _ l3
    · exact L.bytes_item _ l2
  obtain ⟨bs, hb1, hb2⟩ := roundtrip (c := c) (some 4)
    ⟨some 18, [R.E.encBytes prot, R.encKeyUnprot d.pub, R.E.encBytes (R.encAccept x), R.E.encBytes sg]⟩ [] hit
    (by simp) (by intro t h; cases h; omega) (.inr ⟨rfl, by simp⟩)
  simp only at h2
  rw [hb1] at h2
  cases h2
  rw [List.append_nil] at hb2
  have hp : parseSign1 R.E c token = .ok s := by
    unfold decToken at hs
    split at hs <;> cases hs
    assumption
  simp only [parseSign1, hb2, liftP_ok, Res.bind_ok] at hp
  simp only [getLeaf, getRaw, List.getElem?_cons_zero, List.getElem?_cons_succ, L.bytes_dec _ l1, L.bytes_dec _ l3,
    L.bytes_dec _ l2, ofOpt_some, Res.bind_ok, ne_eq, not_true_eq_false, if_false] at hp
  split at hp
  · cases hp; rfl
  · cases hp

/-- The exchange value in a token that passed the checks. -/
theorem acceptValue_decodes {how : Verification R} {n other : Bytes} {s : Sign1} (h : acceptValue how n s = .ok other) :
    R.decAccept s.payload = some other := by
  unfold acceptValue at h
  obtain ⟨pub, h1, h⟩ := Res.bind_eq_ok.mp h
  obtain ⟨ch, h2, h⟩ := Res.bind_eq_ok.mp h
  obtain ⟨leaf, h3, h⟩ := Res.bind_eq_ok.mp h
  obtain ⟨key, h4, h⟩ := Res.bind_eq_ok.mp h
  split at h
  · cases h
  obtain ⟨n', h6, g⟩ := Res.bind_eq_ok.mp h
  split at g
  · cases g
  exact orErr_ok g

/-- The deeds of a successful DIUN. -/
theorem ends_diun {c : Bool} {A : Http.Aead} {how : Verification R} {cl cl' : Http.Client} {k : KeyRef R} {ty : MfgString}
    {t : Trace (sig R)} (h : Prog.Ends (diun c A how cl) t (.ok (cl', k, ty))) :
    ∃ t1 cl1 ks iv body r cl2 p t2 der iv2 body2 r2,
      t = t1 ++ (⟨.iv, iv⟩ :: ⟨.net ⟨.diunRequestKeyParameters, cl1.token, body⟩, some r⟩ :: (t2 ++
        (⟨.iv, iv2⟩ :: ⟨.net ⟨.diunProvideKey, cl2.token, body2⟩, some r2⟩ :: []))) ∧
      Prog.Ends (diunKeys c A how cl) t1 (.ok (cl1, ks)) ∧
      Http.Exchanged A R.decKeyParams cl1 cl2 .diunRequestKeyParameters .diunProvideKeyParameters R.encRequestKey iv
        (some (some ks)) body r p ∧
      Idles t2 ∧ k.publicDer = some der ∧
      Http.Exchanged A R.decDiunDone cl2 cl' .diunProvideKey .diunDone (R.encProvideKey der k.storage) iv2 none body2 r2 ty := by
  obtain ⟨⟨cl1, ks⟩, t1, u1, rfl, h1, g1⟩ := Proc.ends_bind h
  obtain ⟨⟨cl2, p⟩, t2, u2, rfl, h2, g2⟩ := Proc.ends_bind g1
  obtain ⟨k', t3, u3, rfl, h3, g3⟩ := Proc.ends_bind g2
  obtain ⟨der, h4, g4⟩ := Proc.ends_some_bind g3
  obtain ⟨⟨cl3, ty'⟩, t5, u5, rfl, h5, g5⟩ := Proc.ends_bind g4
  obtain ⟨rfl, he⟩ := Proc.ends_pure g5
  cases he
  obtain ⟨iv, body, r, rfl, e1⟩ := Http.ends_send h2
  obtain ⟨iv2, body2, r2, rfl, e2⟩ := Http.ends_send h5
  exact ⟨t1, cl1, ks, iv, body, r, cl2, p, t3, der, iv2, body2, r2, by simp, h1, e1,
    idles_of (only_getNewKey idle_quiet _ _) h3, h4, e2⟩

/-- DIUN: client and server share the session's keys, and the server has the device's public key. -/
theorem diun_talk (L : Laws R.toMfgEnv cfg) (W : Wire R cfg encode) (hO : Http.Opens aead) (hK : KexLaws R.K)
    {p h : Histories} {how : Verification R} {cl : Http.Client} {k : KeyRef R} {ty : MfgString} {t u : Trace (sig R)}
    (hrun : Prog.Ends (diun c aead how .new) t (.ok (cl, k, ty))) (hz : Sized t h)
    (ht : Http.Talk (move B) (Http.start B.empty) (fun rq : Http.Request Srv => rq.oracle.nonInterop) none p h (t ++ u)) :
    ∃ h1 h2 i s der, h = h1 ++ h2 ∧ Http.Sync (Reached (p ++ h1)) cl (some i) s ∧ s.data.deviceKey = some der ∧
      k.publicDer = some der ∧
      Http.Talk (move B) (Http.start B.empty) (fun rq : Http.Request Srv => rq.oracle.nonInterop) (some i) (p ++ h1) h2 u := by
  obtain ⟨t1, cl1, ks, iv, body, r, cl2, prm, t2, der, iv2, body2, r2, rfl, hkeys, e2, q2, hder, e3⟩ := ends_diun hrun
  obtain ⟨n, kx, iv0, body0, r0, tok, other, flag, key, rfl, e1, hacc, hflag, hderive, hks⟩ := ends_diunKeys hkeys
  have hsil : ∀ d ∈ ([⟨.app .nonce, some n⟩, ⟨.app .kex, some kx⟩] : Trace (sig R)), Http.Silent (X := ops R) d := by
    intro d hd
    rcases List.mem_cons.mp hd with rfl | hd
    · exact Http.silent_app _ _
    · rcases List.mem_cons.mp hd with rfl | hd
      · exact Http.silent_app _ _
      · exact absurd hd List.not_mem_nil
  obtain ⟨h1, h2, rfl, u1, ht1⟩ := Http.talk_quiet (X := ops R) (u := [⟨.app Op.nonce, some n⟩, ⟨.app Op.kex, some kx⟩]) hsil
    (by simpa using ht)
  have hs0 : Http.Sync (Reached (p ++ h1)) .new none (Http.Sess.new Srv) := Http.Sync.new _
  obtain ⟨h3, rq, h4, a, w1, resp, data, keys, rfl, ha, hty, hom, hsess, hbody, hdec, hhand, hstep, hkdf, hsync, _, ht2⟩ :=
    Http.talk_exchange (Sv := Srv) rfl hO e1 hs0 ht1
  obtain ⟨rfl, d, skey, srand, sk, token, hd, hox, hsk, htoken, rfl, hdata⟩ := connected W hdec hhand
  have hk1 : cl1.keys = none := e1.keys
  obtain ⟨hread, hs1⟩ := hsync hk1
  have hread : decToken c (encode (.accept token)) = some tok := hread
  rw [W.token] at hread
  have hfl : flag = rq.oracle.nonInterop := by
    have h1 : cl1.nonInterop = some ((none : Option Bool).getD r0.kdfHeader) := e1.kdf
    have hflag : cl1.nonInterop = some flag := hflag
    rw [hflag] at h1
    rw [Option.some.inj h1]
    exact hkdf
  have hm : R.decConnect rq.body =
      some ⟨n, .ecdh384, .a256gcm, (OwnerServer.newKex .ecdh384 kx.1 kx.2).getPublic⟩ := by
    have h1 : some (R.encConnect ⟨n, .ecdh384, .a256gcm, (OwnerServer.newKex .ecdh384 kx.1 kx.2).getPublic⟩) = some body0 :=
      e1.sent
    obtain ⟨m', h2, _⟩ := Option.map_eq_some_iff.1 (show (R.decConnect (R.encConnect _)).map Req.connect = some a.req from hdec)
    rw [hbody, ← Option.some.inj h1, h2, W.connect _ _ h2]
  have hc := hz.client kx.1 kx.2 (by simp)
  have hsv := hz.server rq _ skey srand (by simp) hty hm hox
  have hsz : (OwnerServer.newKex .ecdh384 skey srand : KeyExchange R.K).getPublic.length < 2 ^ 32 := by
    have h1 := hK.ec_len .ecdh384 skey
    have h2 : srand.length = 48 := hsv
    simp only [OwnerServer.newKex, KexSuite.isEcdh, if_true, KeyExchange.getPublic, encodeEcdh, be16, List.length_append, Cbor.toBe_length]
    omega
  have hpay := token_payload L.codec W hd hsz htoken hread
  have hother := acceptValue_decodes hacc
  rw [hpay] at hother
  have hother := (W.accept _ _ hother).symm
  have hsame := (C17_same_key hK (.ecdh .ecdh384 kx.1 kx.2) (.ecdh .ecdh384 skey srand) ⟨rfl, rfl, hc, hsv⟩ .a256gcm
    rq.oracle.nonInterop).1
  have hkey : sk = key := by
    rw [← hother, hfl] at hderive
    have h1 : (KeyExchange.ecdh .ecdh384 kx.1 kx.2 : KeyExchange R.K).deriveKey .device .a256gcm rq.oracle.nonInterop
      (KeyExchange.ecdh .ecdh384 skey srand : KeyExchange R.K).getPublic = .ok key := hderive
    have h2 : (KeyExchange.ecdh .ecdh384 skey srand : KeyExchange R.K).deriveKey .owner .a256gcm rq.oracle.nonInterop
      (KeyExchange.ecdh .ecdh384 kx.1 kx.2 : KeyExchange R.K).getPublic = .ok sk := hsk
    rw [hsame, h2] at h1
    cases h1
    rfl
  subst hkey
  have hks : ks = ⟨.a256gcm, sk⟩ := hks
  subst hks
  -- key parameters
  obtain ⟨h5, rq2, h6, a2, w2, resp2, data2, keys2, rfl, ha2, _, _, hsess2, _, hdec2, hhand2, _, _, hsync2, _, ht3⟩ :=
    Http.talk_exchange (Sv := Srv) rfl hO e2 hs1 ht2
  have hreq : a2.req = .requestKey := by
    have hdec2 : decode R.toMfgEnv .diunRequestKeyParameters R.encRequestKey = some a2.req := hdec2
    simp only [decode] at hdec2
    split at hdec2
    · exact (Option.some.inj hdec2).symm
    · cases hdec2
  rw [server_handle, hreq] at hhand2
  simp only [Prod.mk.injEq] at hhand2
  obtain ⟨dk, hdk, rfl, rfl⟩ := requestKey_ok (answer_some hhand2.2)
  have hdk' : dk = ⟨.a256gcm, sk⟩ := Option.some.inj (hdk.symm.trans hdata)
  subst hdk'
  have hk2 : cl2.keys = some ⟨.a256gcm, sk⟩ := e2.keys
  obtain ⟨_, hs2⟩ := hsync2 hk2
  -- the key
  obtain ⟨h7, h8, rfl, u3, ht4⟩ := Http.talk_quiet q2.silent ht3
  have hs3 := hs2.move u3
  obtain ⟨h9, rq3, h10, a3, w3, resp3, data3, keys3, rfl, ha3, _, _, hsess3, _, hdec3, hhand3, _, _, hsync3, _, ht5⟩ :=
    Http.talk_exchange (Sv := Srv) rfl hO e3 hs3 ht4
  have hreq3 : a3.req = .provideKey der k.storage := by
    have hdec3 : decode R.toMfgEnv .diunProvideKey (R.encProvideKey der k.storage) = some a3.req := hdec3
    obtain ⟨x, h1, h2⟩ := Option.map_eq_some_iff.1
      (show (R.decProvideKey (R.encProvideKey der k.storage)).map (fun x => Req.provideKey x.1 x.2) = some a3.req from hdec3)
    rw [← h2, W.provideKey _ _ _ h1]
  rw [server_handle, hreq3] at hhand3
  simp only [Prod.mk.injEq] at hhand3
  obtain ⟨hx, hk3⟩ := keep_ok (answer_some hhand3.2)
  have hdata3 := provideKey_ok hx
  have hkk : cl.keys = keys3 := by
    have h1 : cl.keys = cl2.keys := e3.keys
    rw [h1, hk2, hk3]
  obtain ⟨_, hs4⟩ := hsync3 hkk
  refine ⟨h1 ++ (h3 ++ .request rq :: (h5 ++ .request rq2 :: (h7 ++ (h9 ++ [.request rq3])))), h10, a3.id,
    ⟨some .diunDone, keys3, data3⟩, der, by simp, ?_, ?_, hder, ?_⟩
  · simpa [reached] using hs4
  · change data3.deviceKey = some der
    rw [hdata3]
  · simpa using ht5

end

end Verif.MfgClient
