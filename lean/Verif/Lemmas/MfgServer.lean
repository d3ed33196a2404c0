import Verif.Spec.MfgServer
import Verif.Lemmas.RvServer
import Verif.Lemmas.Canonical
/-!
Facts about the handlers and stores of the manufacturing server, used by `Props/MfgServer`.
-/
namespace Verif.MfgServer
open Verif Verif.Voucher Verif.Store Verif.Types Verif.Cbor

variable {R : MfgEnv} {c : Bool} {B : MStore} {cfg : Config R}

/-! ### Start-up -/

theorem optional_some {α : Type} {x : Option (Option α)} {y : Option α} (h : optional x = some y) :
    (x = none ∧ y = none) ∨ ∃ a, x = some (some a) ∧ y = some a := by
  unfold optional at h
  split at h
  · cases h; exact .inl ⟨rfl, rfl⟩
  · cases h
  · cases h; exact .inr ⟨_, rfl, rfl⟩

theorem startup_some {s : Settings R} (h : startup R s = some cfg) :
    ∃ chain, s.caChain = some chain ∧ chain ≠ [] ∧ cfg.caChain = R.mkChain chain ∧
      cfg.mfgKey.isNone = cfg.owner.isNone ∧ cfg.enableDi = s.plainDi.getD false ∧
      optional s.mfgKey = some cfg.mfgKey ∧ optional s.owner = some cfg.owner := by
  unfold startup at h
  simp only [Option.bind_eq_bind, Option.bind_eq_some_iff] at h
  obtain ⟨caKey, _, chain, hc, h⟩ := h
  split at h
  · cases h
  rename_i hne
  simp only [Option.bind_eq_some_iff] at h
  obtain ⟨mc, _, mk, hmk, ow, how, h⟩ := h
  split at h
  · cases h
  rename_i hp
  simp only [Option.bind_eq_some_iff] at h
  obtain ⟨d, _, rv, _, h⟩ := h
  cases h
  refine ⟨chain, hc, ?_, rfl, ?_, rfl, hmk, how⟩
  · rintro rfl; exact hne rfl
  · simpa using hp

/-! ### Handlers -/

theorem keep_ok {k : Option Http.Keys} {x : Res Err (Resp × Data R)} {r : Resp} {s : Data R} {k' : Option Http.Keys}
    (h : keep R k x = .ok (r, s, k')) : x = .ok (r, s) ∧ k' = k := by
  unfold keep at h
  split at h
  · cases h; exact ⟨rfl, rfl⟩
  · cases h
  · cases h

theorem answer_some {α : Type} {x : Res Err α} {a : α} (h : answer x = some a) : x = .ok a := by
  unfold answer at h
  split at h
  · cases h; rfl
  · cases h

theorem connect_ok {o : Oracle R} {m : Connect} {s s' : Data R} {r : Resp} (h : connect R cfg o m s = .ok (r, s')) :
    ∃ d key random k token, cfg.diun = some d ∧ o.kex = some (key, random) ∧
      (OwnerServer.newKex m.kex key random).deriveKey .owner m.cipher o.nonInterop m.keyExchange = .ok k ∧
      r = .accept token ∧ s' = { s with diunKeys := some ⟨m.cipher, k⟩ } := by
  unfold connect at h
  split at h
  · cases h
  rename_i d hd
  split at h
  · cases h
  rename_i key random hk
  simp only [Res.bind_eq_ok] at h
  obtain ⟨k, hk', token, ht, h⟩ := h
  cases h
  exact ⟨d, key, random, k, token, hd, hk, hk', rfl, rfl⟩

theorem requestKey_ok {s s' : Data R} {r : Resp} {ks : Option Http.Keys}
    (h : requestKey R cfg s = .ok (r, s', ks)) :
    ∃ k, s.diunKeys = some k ∧ ks = some k ∧ s' = { s with diunKeys := none } := by
  unfold requestKey at h
  split at h
  · cases h
  split at h
  · cases h
  rename_i k hk
  cases h
  exact ⟨k, hk, rfl, rfl⟩

theorem provideKey_ok {key : Bytes} {s s' : Data R} {r : Resp} (h : provideKey R cfg key s = .ok (r, s')) :
    s' = { s with deviceKey := some key, performed := true } := by
  unfold provideKey at h
  split at h
  · cases h
  cases h
  rfl

theorem deviceKeyDer_ok {o : Oracle R} {info : String} {s : Data R} {der : Bytes}
    (h : deviceKeyDer R cfg o info s = .ok der) :
    s.deviceKey = some der ∨ (s.deviceKey = none ∧ cfg.keyStore = true ∧ o.keys info.toList = .ok (some der)) := by
  unfold deviceKeyDer at h
  split at h
  · rename_i k hk; cases h; exact .inl hk
  rename_i hn
  split at h
  · rename_i hs
    split at h
    · rename_i k hk; cases h; exact .inr ⟨hn, hs, hk⟩
    · cases h
    · cases h
    · cases h
  · cases h

theorem derOf_some {l : List R.C.Cert} {b : Bytes} (h : derOf R l = some b) : ∃ ds, l.mapM R.der = some ds ∧ b = ds.flatten := by
  induction l generalizing b with
  | nil => cases h; exact ⟨[], rfl, rfl⟩
  | cons x r ih =>
    unfold derOf at h
    split at h
    · rename_i a y ha hy
      cases h
      obtain ⟨ds, h1, rfl⟩ := ih hy
      refine ⟨a :: ds, ?_, rfl⟩
      simp [List.mapM_cons, ha, h1]
    · cases h

/-- What AppStart leaves in the session: the header and the chain. -/
structure Prepared (R : MfgEnv) (cfg : Config R) (s : Data R) (info : String) (der g hb : Bytes) : Prop where
  hex : s.header = some (hexEncode hb)
  rest : ∃ ca dev f key ds pub, (R.certs cfg.caChain).head? = some ca ∧
    s.chain = some (R.mkChain (dev :: R.certs cfg.caChain)) ∧
    R.build f cfg.caKey = some dev ∧ f.issuer = ca ∧ f.subject = info ∧ f.key = key ∧ R.keyFromDer der = some key ∧
    (dev :: R.certs cfg.caChain).mapM R.der = some ds ∧ R.certPub cfg.mfgCert = some pub ∧ g.length = 16 ∧
    Header.serialize R.E (Header.new R.E 101 g cfg.rv (R.trim info) pub
      (some ⟨.sha384, R.E.digest .sha384 ds.flatten⟩)) = .ok hb

theorem Prepared.congr {s s' : Data R} {info : String} {der g hb : Bytes} (p : Prepared R cfg s info der g hb)
    (h1 : s'.header = s.header) (h2 : s'.chain = s.chain) : Prepared R cfg s' info der g hb := by
  obtain ⟨h, ca, dev, f, key, ds, pub, p⟩ := p
  exact ⟨by rw [h1, h], ca, dev, f, key, ds, pub, p.1, by rw [h2]; exact p.2.1, p.2.2⟩

theorem appStart_ok {o : Oracle R} {raw : Bytes} {s s' : Data R} {r : Resp}
    (h : appStart R cfg o raw s = .ok (r, s')) :
    ∃ info der g hb, admitted R cfg s = true ∧ R.decMfgInfo raw = some (some info) ∧
      deviceKeyDer R cfg o info s = .ok der ∧ o.guid = some g ∧ r = .setCredentials hb ∧
      Prepared R cfg s' info der g hb ∧ s'.diunKeys = s.diunKeys ∧ s'.deviceKey = s.deviceKey ∧
      s'.performed = s.performed := by
  unfold appStart at h
  split at h
  · cases h
  rename_i hadm
  split at h
  · cases h
  · cases h
  rename_i info hinfo
  simp only [Res.bind_eq_ok] at h
  obtain ⟨der, hder, key, hkey, cert, hcert, h⟩ := h
  split at h
  · cases h
  rename_i g hg
  split at h
  · cases h
  rename_i hl
  simp only [Res.bind_eq_ok] at h
  obtain ⟨header, hh, hb, hhb, h⟩ := h
  cases h
  unfold deviceCert at hcert
  split at hcert
  · cases hcert
  rename_i ca hca
  split at hcert
  · cases hcert
  rename_i n hn
  have hcert := ofOpt_eq_ok.1 hcert
  unfold newHeader at hh
  simp only [Res.bind_eq_ok] at hh
  obtain ⟨d, hd, x, hx, pub, hpub, hh⟩ := hh
  cases hh
  obtain ⟨ds, hds, rfl⟩ := derOf_some (ofOpt_eq_ok.1 hd)
  obtain ⟨_, rfl⟩ := hashData_ok.1 hx
  refine ⟨info, der, g, hb, by simpa using hadm, hinfo, hder, hg, rfl, ⟨rfl, ca, cert, _, key, ds, pub, hca, rfl,
    hcert, rfl, rfl, rfl, ofOpt_eq_ok.1 hkey, hds, ofOpt_eq_ok.1 hpub, Classical.not_not.1 hl, hhb⟩, rfl, rfl, rfl⟩

theorem setHmac_cases (hmac : Hash) (s : Data R) (w : B.W) :
    ((setHmac R c B cfg hmac s w).1 = w ∧ ∀ x, (setHmac R c B cfg hmac s w).2 ≠ .ok x) ∨
    ∃ g v b, admitted R cfg s = true ∧ sessionVoucher R c cfg hmac s = .ok (g, v) ∧ Voucher.serialize v = .ok b ∧
      (setHmac R c B cfg hmac s w).1 = (B.put w (guidText g) b).1 ∧
      ((B.put w (guidText g) b).2 = .ok () ∧ (setHmac R c B cfg hmac s w).2 = .ok (.done, s) ∨
       (B.put w (guidText g) b).2 ≠ .ok () ∧ ∀ x, (setHmac R c B cfg hmac s w).2 ≠ .ok x) := by
  unfold setHmac
  split
  · exact .inl ⟨rfl, nofun⟩
  rename_i hadm
  split
  · exact .inl ⟨rfl, nofun⟩
  · exact .inl ⟨rfl, nofun⟩
  rename_i g v hv
  split
  · exact .inl ⟨rfl, nofun⟩
  · exact .inl ⟨rfl, nofun⟩
  rename_i b hb
  refine .inr ⟨g, v, b, by simpa using hadm, hv, hb, ?_⟩
  split
  · rename_i h; rw [h]; exact ⟨rfl, .inl ⟨rfl, rfl⟩⟩
  · rename_i h; rw [h]; exact ⟨rfl, (.inr ⟨nofun, nofun⟩)⟩
  · rename_i h; rw [h]; exact ⟨rfl, (.inr ⟨nofun, nofun⟩)⟩

/-! ### Issued vouchers -/

/-- Elements of a written array are not longer than the array. -/
theorem serialize_mem {a : ParsedArray} {bs x : Bytes} (h : Cbor.serialize a = .ok bs) (hx : x ∈ a.contents) :
    x.length ≤ bs.length := by
  obtain ⟨t, hd, rfl⟩ : ∃ t hd, bs = t ++ hd ++ a.contents.flatten := by
    unfold Cbor.serialize at h
    split at h
    all_goals
      simp only [Res.bind_eq_ok] at h
      obtain ⟨t, _, hd, _, h⟩ := h
      cases h
      exact ⟨t, hd, rfl⟩
  have : ∀ l : List Bytes, x ∈ l → x.length ≤ l.flatten.length := by
    intro l hl
    induction l with
    | nil => cases hl
    | cons y r ih =>
      simp only [List.flatten_cons, List.length_append]
      rcases List.mem_cons.1 hl with rfl | h
      · omega
      · have := ih h; omega
  have := this _ hx
  simp only [List.length_append]
  omega

theorem new_ok {h : Header R.E} {hmac : Hash} {ch : Option R.E.Chain} {v : Voucher R.E}
    (hn : Voucher.new h hmac ch = .ok v) :
    ∃ hb eb, Cbor.serialize h.contents = .ok hb ∧
      v.contents = ⟨none, [R.E.encVersion 101, R.E.encBytes hb, R.E.encHash hmac, R.E.encChainOpt ch, eb]⟩ ∧
      v.header = h ∧ v.entries = ⟨none, []⟩ := by
  unfold Voucher.new at hn
  simp only [Res.bind_eq_ok] at hn
  obtain ⟨hb, h1, eb, h2, hn⟩ := hn
  cases hn
  refine ⟨hb, eb, ?_, rfl, rfl, rfl⟩
  cases hs : Cbor.serialize h.contents with
  | ok x => rw [hs] at h1; cases h1; rfl
  | err e => rw [hs] at h1; cases h1
  | panic => rw [hs] at h1; cases h1

theorem extend_matches {E : Env} {v v' : Voucher E} {k : E.Priv} {x : Option E.Extra} {n : E.Pub}
    (he : v.entries.contents = []) (h : extend c v k x n = (v', .ok ())) : E.keyMatches v.header.mfgKey k = true := by
  apply Classical.byContradiction
  intro hk
  have := (C07_only_owner_extends (c := c) v k x n (fun o ho => ?_)).2
  · rw [h] at this; exact this rfl
  · rcases ho with ⟨_, rfl⟩ | ⟨raw, _, _, hr, _⟩
    · simpa using hk
    · rw [he] at hr; cases hr

theorem extend_contents {E : Env} {v v' : Voucher E} {k : E.Priv} {x : Option E.Extra} {n : E.Pub}
    (h : extend c v k x n = (v', .ok ())) : ∃ eb, v'.contents.contents = v.contents.contents.set 4 eb := by
  unfold extend at h
  split at h
  · cases h
  · cases h
  simp only at h
  split at h
  · rename_i eb heb
    cases h
    exact ⟨eb, rfl⟩
  · cases h
  · cases h

/-- The header in a prepared session reads back. -/
theorem prepared_header (L : Laws R cfg) {s : Data R} {info : String} {der g hb : Bytes}
    (p : Prepared R cfg s info der g hb) (hsz : hb.length < 2 ^ 63) :
    ∃ header, Header.deserialize R.E c hb = .ok header ∧ (header.guid = g ∧ g.length = 16) ∧
      Cbor.serialize header.contents = .ok hb ∧ header.contents.contents.length = 6 := by
  obtain ⟨hex, ca, dev, f, key, ds, pub, hca, hch, hbuild, hfi, hfs, hfk, hkey, hds, hpub, hgl, hser⟩ := p
  have hser' := hser
  unfold Header.serialize at hser'
  split at hser'
  · cases hser'
  rename_i hinfo
  have hcs : Cbor.serialize (Header.new R.E 101 g cfg.rv (R.trim info) pub
      (some ⟨.sha384, R.E.digest .sha384 ds.flatten⟩)).contents = .ok hb := by
    cases hs : Cbor.serialize (Header.new R.E 101 g cfg.rv (R.trim info) pub
      (some ⟨.sha384, R.E.digest .sha384 ds.flatten⟩)).contents with
    | ok x => rw [hs] at hser'; cases hser'; rfl
    | err e => rw [hs] at hser'; cases hser'
    | panic => rw [hs] at hser'; cases hser'
  have hmem : ∀ x ∈ (Header.new R.E 101 g cfg.rv (R.trim info) pub
      (some ⟨.sha384, R.E.digest .sha384 ds.flatten⟩)).contents.contents, x.length < 2 ^ 63 := by
    intro x hx
    have := serialize_mem hcs hx
    omega
  have hsmall : SmallHeader R.E cfg.rv (R.trim info) pub (some ⟨.sha384, R.E.digest .sha384 ds.flatten⟩) :=
    ⟨hmem _ (by simp [Header.new]), hmem _ (by simp [Header.new]), hmem _ (by simp [Header.new]),
      hmem _ (by simp [Header.new])⟩
  have hwf := headerWf_new L.leaf (.inr rfl) hgl (by simp only [Header.new] at hinfo; simpa using hinfo) hsmall
  obtain ⟨hb2, hr1, hr2⟩ := header_roundtrip (c := c) hwf []
  rw [List.append_nil] at hr2
  rw [hcs] at hr1
  cases hr1
  exact ⟨_, hr2, ⟨rfl, hgl⟩, hcs, rfl⟩

/-- The GUID of the header in a prepared session. -/
theorem prepared_guid (L : Laws R cfg) {s : Data R} {info : String}
    {der g hb : Bytes} (p : Prepared R cfg s info der g hb) (hsz : hb.length < 2 ^ 63) {hmac : Hash} {g' : Bytes}
    {v : Voucher R.E} (hv : sessionVoucher R c cfg hmac s = .ok (g', v)) : g' = g ∧ g.length = 16 := by
  obtain ⟨header, hd, hg, _⟩ := prepared_header (c := c) L p hsz
  refine ⟨?_, hg.2⟩
  unfold sessionVoucher at hv
  rw [p.hex] at hv
  simp only [Types.hexDecode_encode] at hv
  rw [show (ofOpt Err.serde (some hb) : Res Err Bytes) = .ok hb from rfl] at hv
  simp only [Res.bind_ok, hd] at hv
  split at hv
  · cases hv
  rw [Res.bind_eq_ok] at hv
  obtain ⟨v2, _, hv⟩ := hv
  cases hv
  exact hg.1

/-- The voucher made in a prepared session. -/
theorem issued (L : Laws R cfg) (hpair : cfg.mfgKey.isNone = cfg.owner.isNone) {s : Data R} {info : String}
    {der g hb : Bytes} (p : Prepared R cfg s info der g hb) (hsz : hb.length < 2 ^ 63) {hmac : Hash} {g' : Bytes}
    {v : Voucher R.E} (hv : sessionVoucher R c cfg hmac s = .ok (g', v)) {b : Bytes} (hb' : Voucher.serialize v = .ok b)
    (hbsz : b.length < 2 ^ 63) :
    g' = g ∧ g.length = 16 ∧ deserialize c b = .ok (v, []) ∧ v.header.guid = g ∧ Header.serialize R.E v.header = .ok hb ∧
      getLeaf R.E.decBytes v.contents 1 = .ok hb ∧ v.header.deviceInfo = R.trim info ∧ v.header.rv = cfg.rv ∧
      v.hmac = hmac ∧ Certifies R cfg v info der ∧ OwnedAsConfigured R c cfg v ∧ Canonical c v := by
  obtain ⟨hex, ca, dev, f, key, ds, pub, hca, hch, hbuild, hfi, hfs, hfk, hkey, hds, hpub, hgl, hser⟩ := p
  have hser' := hser
  unfold Header.serialize at hser'
  split at hser'
  · cases hser'
  rename_i hinfo
  have hcs : Cbor.serialize (Header.new R.E 101 g cfg.rv (R.trim info) pub
      (some ⟨.sha384, R.E.digest .sha384 ds.flatten⟩)).contents = .ok hb := by
    cases hs : Cbor.serialize (Header.new R.E 101 g cfg.rv (R.trim info) pub
      (some ⟨.sha384, R.E.digest .sha384 ds.flatten⟩)).contents with
    | ok x => rw [hs] at hser'; cases hser'; rfl
    | err e => rw [hs] at hser'; cases hser'
    | panic => rw [hs] at hser'; cases hser'
  have hmem : ∀ x ∈ (Header.new R.E 101 g cfg.rv (R.trim info) pub
      (some ⟨.sha384, R.E.digest .sha384 ds.flatten⟩)).contents.contents, x.length < 2 ^ 63 := by
    intro x hx
    have := serialize_mem hcs hx
    omega
  have hsmall : SmallHeader R.E cfg.rv (R.trim info) pub (some ⟨.sha384, R.E.digest .sha384 ds.flatten⟩) :=
    ⟨hmem _ (by simp [Header.new]), hmem _ (by simp [Header.new]), hmem _ (by simp [Header.new]),
      hmem _ (by simp [Header.new])⟩
  have hwf := headerWf_new L.leaf (.inr rfl) hgl (by simp only [Header.new] at hinfo; simpa using hinfo) hsmall
  obtain ⟨hb2, hr1, hr2⟩ := header_roundtrip (c := c) hwf []
  rw [List.append_nil] at hr2
  rw [hcs] at hr1
  cases hr1
  unfold sessionVoucher at hv
  rw [hex] at hv
  simp only [Types.hexDecode_encode] at hv
  rw [hch] at hv
  rw [show (ofOpt Err.serde (some hb) : Res Err Bytes) = .ok hb from rfl] at hv
  simp only [Res.bind_ok, hr2] at hv
  rw [Res.bind_eq_ok] at hv
  obtain ⟨v2, hi, hv⟩ := hv
  cases hv
  unfold issue at hi
  rw [Res.bind_eq_ok] at hi
  obtain ⟨v0, hnew, hi⟩ := hi
  obtain ⟨hbx, eb, hc1, hc2, hc3, hc4⟩ := new_ok hnew
  rw [hcs] at hc1
  cases hc1
  have hvs : ∀ x ∈ v.contents.contents, x.length < 2 ^ 63 := by
    intro x hx
    have hb'' : Cbor.serialize v.contents = .ok b := by
      unfold Voucher.serialize at hb'
      cases hs : Cbor.serialize v.contents with
      | ok x => rw [hs] at hb'; cases hb'; rfl
      | err e => rw [hs] at hb'; cases hb'
      | panic => rw [hs] at hb'; cases hb'
    have := serialize_mem hb'' hx
    omega
  have hfirst : ∃ e', v.contents.contents = [R.E.encVersion 101, R.E.encBytes hb, R.E.encHash hmac,
      R.E.encChainOpt (some (R.mkChain (dev :: R.certs cfg.caChain))), e'] := by
    split at hi
    · cases hi; exact ⟨eb, by rw [hc2]⟩
    · split at hi
      · cases hi
      · split at hi
        · rename_i hext
          cases hi
          obtain ⟨e', he'⟩ := extend_contents hext
          exact ⟨e', by rw [he', hc2]; rfl⟩
        · cases hi
        · cases hi
  obtain ⟨e', hfirst⟩ := hfirst
  obtain ⟨v1, n1, n2, n3, n4, n5, n6, n7⟩ := rewritable_new (c := c) L.leaf L.codec hwf (hmac := hmac)
    (hvs _ (by rw [hfirst]; simp)) (ch := R.mkChain (dev :: R.certs cfg.caChain)) (hvs _ (by rw [hfirst]; simp))
    (by intro bs hbs; rw [hcs] at hbs; cases hbs; exact hsz)
  rw [hnew] at n1
  cases n1
  have hcert : ∀ v : Voucher R.E, v.chain = some (R.mkChain (dev :: R.certs cfg.caChain)) →
      v.header.chainHash = some ⟨.sha384, R.E.digest .sha384 ds.flatten⟩ → Certifies R cfg v info der := by
    intro v hv1 hv2
    have hcc := L.chain_certs f dev hbuild
    refine ⟨_, ca, dev, f, key, ds, hv1, hca, hcc, hbuild, hfi, hfs, hkey, ?_, ?_, hv2⟩
    · rw [L.built _ _ _ hbuild, hfk]
    · rw [hcc]; exact hds
  have hleaf : getLeaf R.E.decBytes v.contents 1 = .ok hb := by
    unfold getLeaf
    rw [hfirst]
    simp [L.codec.bytes_dec _ hsz]
  split at hi
  · rename_i hmk
    cases hi
    obtain ⟨bs, r1, r2⟩ := rewritable_roundtrip n2 []
    rw [hb'] at r1
    cases r1
    rw [List.append_nil] at r2
    refine ⟨rfl, hgl, r2, by rw [n3]; rfl, by rw [n3]; exact hser, hleaf, by rw [n3]; rfl, by rw [n3]; rfl, n4,
      hcert _ n5 (by rw [n3]; rfl), ⟨by rw [n3]; exact hpub, ?_⟩, n2, n7, by rw [n3]; rfl, by rw [n3]; exact hgl, by rw [n3]; rfl,
      by rw [hfirst, n4]; rfl, by rw [n6], by rw [n6]; simp⟩
    rw [hmk] at hpair
    have : cfg.owner = none := by simpa using hpair.symm
    rw [this]
    simp only
    rw [n6]
  · rename_i k hmk
    split at hi
    · cases hi
    rename_i o ho
    split at hi
    · rename_i vx hext
      cases hi
      have hkm := extend_matches (by rw [n6]) hext
      obtain ⟨v', raw, pl, q1, q2, q3, q4, q5, q6, q7, q8, q9, q10, q11, q12, q13, q14, q15⟩ :=
        C06_extend_partial (c := c) L.codec v0 n2.wf (by rw [n6]) (by rw [n6]; simp) (by rw [n6]; simp) []
          (by unfold verifyAll; rw [n6]; rfl) k (L.signing k hmk) hkm none (by simp) o (L.payload o ho)
      rw [hext] at q1
      cases q1
      have hrw := rewritable_extend n2 hext q15 q8
        (by rw [q6, n6]; intro i hi; simp only [List.nil_append, List.mem_singleton] at hi; subst hi; exact q7)
        (by rw [q6, n6]; simp) q13 q14
      obtain ⟨bs, r1, r2⟩ := rewritable_roundtrip hrw []
      rw [hb'] at r1
      cases r1
      rw [List.append_nil] at r2
      have hh : v.header = Header.new R.E 101 g cfg.rv (R.trim info) pub
          (some ⟨.sha384, R.E.digest .sha384 ds.flatten⟩) := by rw [q9, n3]
      refine ⟨rfl, hgl, r2, by rw [hh]; rfl, by rw [hh]; exact hser, hleaf, by rw [hh]; rfl, by rw [hh]; rfl,
        by rw [q10, n4], hcert _ (by rw [q11, n5]) (by rw [hh]; rfl), ⟨by rw [hh]; exact hpub, ?_⟩, ?_⟩
      · rw [ho]
        exact ⟨pl, q2, q5⟩
      · have hcan : Canonical c v0 := ⟨n2, n7, by rw [n3]; rfl, by rw [n3]; exact hgl, by rw [n3]; rfl, by rw [hc2, n4]; rfl,
          by rw [n6], by rw [n6]; simp⟩
        obtain ⟨v', _, z1, z2, _⟩ := hcan.extend L.codec (by rw [n6]; simp) (ps := [])
          (by unfold verifyAll; rw [n6]; rfl) (L.signing k hmk) hkm (L.payload o ho)
        rw [hext] at z1
        cases z1
        exact z2
    · cases hi
    · cases hi

/-! ### Panics -/

theorem liftP_ne_panic {α : Type} {x : Res ParseErr α} (h : x ≠ .panic) : liftP x ≠ .panic := by
  cases x with
  | ok a => exact nofun
  | err e => exact nofun
  | panic => exact absurd rfl h

theorem serialize_ne_panic {a : ParsedArray} (h : a.contents.length ≤ 65535) (ht : a.tag = none ∨ a.tag = some 18) :
    Cbor.serialize a ≠ .panic := by
  have he : ∀ m v, v ≤ 65535 → encodeItemStart m v ≠ .panic := by
    intro m v hv
    unfold encodeItemStart
    repeat' split
    all_goals first | exact nofun | omega
  obtain ⟨tag, l⟩ := a
  intro hp
  unfold Cbor.serialize at hp
  rcases ht with ht | ht
  · simp only at ht
    subst ht
    rcases Res.bind_eq_panic.1 hp with h1 | ⟨_, _, hp⟩
    · cases h1
    · rcases Res.bind_eq_panic.1 hp with h1 | ⟨_, _, hp⟩
      · exact he _ _ h h1
      · cases hp
  · simp only at ht
    subst ht
    rcases Res.bind_eq_panic.1 hp with h1 | ⟨_, _, hp⟩
    · exact he _ _ (by omega) h1
    · rcases Res.bind_eq_panic.1 hp with h1 | ⟨_, _, hp⟩
      · exact he _ _ h h1
      · cases hp

theorem hashData_ne_panic {E : Env} {t : HashType} {d : Bytes} : E.hashData t d ≠ .panic := by
  unfold Env.hashData
  split <;> exact nofun

theorem getLeaf_ne_panic {α : Type} {dec : Bytes → Option α} {a : ParsedArray} {i : Nat} (h : i < a.contents.length) :
    getLeaf dec a i ≠ .panic := by
  unfold getLeaf
  rw [List.getElem?_eq_getElem h]
  exact ofOpt_ne_panic

theorem getRaw_ne_panic {a : ParsedArray} {i : Nat} (h : i < a.contents.length) : getRaw a i ≠ .panic := by
  unfold getRaw
  rw [List.getElem?_eq_getElem h]
  exact nofun

/-- Extending a voucher without entries does not panic. -/
theorem extend_ne_panic {E : Env} {v : Voucher E} {k : E.Priv} {x : Option E.Extra} {n : E.Pub}
    (h1 : v.header.contents.contents.length = 6) (h2 : v.contents.contents.length = 5) (h3 : v.entries = ⟨none, []⟩) :
    (extend c v k x n).2 ≠ .panic := by
  have hn : newEntry c v k x n ≠ .panic := by
    intro hp
    unfold newEntry at hp
    split at hp
    · cases hp
    rcases Res.bind_eq_panic.1 hp with h | ⟨hi, _, hp⟩
    · unfold Header.infoHash at h
      rcases Res.bind_eq_panic.1 h with h | ⟨_, _, h⟩
      · unfold Header.infoBytes at h
        rcases Res.bind_eq_panic.1 h with h | ⟨_, _, h⟩
        · exact getLeaf_ne_panic (by omega) h
        · rcases Res.bind_eq_panic.1 h with h | ⟨_, _, h⟩
          · exact getLeaf_ne_panic (by omega) h
          · cases h
      · exact hashData_ne_panic h
    · rcases Res.bind_eq_panic.1 hp with h | ⟨⟨last, owner⟩, _, hp⟩
      · unfold currentOwner at h
        rw [h3] at h
        rcases Res.bind_eq_panic.1 h with h | ⟨_, _, h⟩
        · unfold hdrHash at h
          rcases Res.bind_eq_panic.1 h with h | ⟨_, _, h⟩
          · unfold hdrBytes at h
            rcases Res.bind_eq_panic.1 h with h | ⟨_, _, h⟩
            · exact getLeaf_ne_panic (by omega) h
            · rcases Res.bind_eq_panic.1 h with h | ⟨_, _, h⟩
              · exact getRaw_ne_panic (by omega) h
              · cases h
          · exact hashData_ne_panic h
        · cases h
      · simp only at hp
        split at hp
        · cases hp
        unfold signRaw at hp
        rcases Res.bind_eq_panic.1 hp with h | ⟨⟨prot, sig⟩, _, hp⟩
        · exact ofOpt_ne_panic h
        · exact liftP_ne_panic (serialize_ne_panic (by simp) (.inr rfl)) hp
  unfold extend
  split
  · exact nofun
  · rename_i h; exact absurd h hn
  · simp only
    split
    · exact nofun
    · exact nofun
    · rename_i h
      exact absurd h (serialize_ne_panic (by rw [h3]; simp) (by rw [h3]; exact .inl rfl))

/-- Issuing a voucher does not panic if manufacturer key and owner are both there or both missing. -/
theorem issue_ne_panic (hpair : cfg.mfgKey.isNone = cfg.owner.isNone) {header : Header R.E} {hb : Bytes}
    (hc : Cbor.serialize header.contents = .ok hb) (h6 : header.contents.contents.length = 6) (hmac : Hash)
    (ch : R.E.Chain) : issue R c cfg header hmac ch ≠ .panic := by
  intro hp
  unfold issue at hp
  rcases Res.bind_eq_panic.1 hp with h | ⟨v, hv, hp⟩
  · unfold Voucher.new at h
    rcases Res.bind_eq_panic.1 h with h | ⟨_, _, h⟩
    · rw [hc] at h; cases h
    · rcases Res.bind_eq_panic.1 h with h | ⟨_, _, h⟩
      · exact liftP_ne_panic (serialize_ne_panic (by simp) (.inl rfl)) h
      · cases h
  · obtain ⟨hbx, eb, _, n2, n3, n4⟩ := new_ok hv
    split at hp
    · cases hp
    rename_i k hk
    split at hp
    · rename_i ho
      rw [hk, ho] at hpair
      cases hpair
    rename_i o ho
    have hne := extend_ne_panic (c := c) (v := v) (k := k) (x := none) (n := o) (by rw [n3, h6]) (by rw [n2]; rfl) n4
    split at hp
    · cases hp
    · cases hp
    · rename_i h
      rw [h] at hne
      exact hne rfl

/-- The voucher of a prepared session, and its writing, do not panic. -/
theorem session_ne_panic (L : Laws R cfg) (hpair : cfg.mfgKey.isNone = cfg.owner.isNone) {s : Data R} {info : String}
    {der g hb : Bytes} (p : Prepared R cfg s info der g hb) (hsz : hb.length < 2 ^ 63) (hmac : Hash) :
    sessionVoucher R c cfg hmac s ≠ .panic ∧
    ∀ g' v, sessionVoucher R c cfg hmac s = .ok (g', v) → Voucher.serialize v ≠ .panic := by
  obtain ⟨header, hd, hg, hcs, h6⟩ := prepared_header (c := c) L p hsz
  have key : ∀ ch, issue R c cfg header hmac ch ≠ .panic := issue_ne_panic hpair hcs h6 hmac
  constructor
  · intro hv
    unfold sessionVoucher at hv
    rw [p.hex] at hv
    simp only [Types.hexDecode_encode] at hv
    rw [show (ofOpt Err.serde (some hb) : Res Err Bytes) = .ok hb from rfl] at hv
    simp only [Res.bind_ok, hd] at hv
    split at hv
    · cases hv
    rcases Res.bind_eq_panic.1 hv with h | ⟨_, _, h⟩
    · exact key _ h
    · cases h
  · intro g' v hv hs
    unfold sessionVoucher at hv
    rw [p.hex] at hv
    simp only [Types.hexDecode_encode] at hv
    rw [show (ofOpt Err.serde (some hb) : Res Err Bytes) = .ok hb from rfl] at hv
    simp only [Res.bind_ok, hd] at hv
    split at hv
    · cases hv
    rw [Res.bind_eq_ok] at hv
    obtain ⟨v2, hi, hv⟩ := hv
    cases hv
    unfold issue at hi
    rw [Res.bind_eq_ok] at hi
    obtain ⟨v0, hnew, hi⟩ := hi
    obtain ⟨_, eb, _, n2, _, _⟩ := new_ok hnew
    refine liftP_ne_panic (serialize_ne_panic ?_ ?_) hs
    · have : v.contents.contents.length = 5 := by
        split at hi
        · cases hi; rw [n2]; rfl
        · split at hi
          · cases hi
          · split at hi
            · rename_i hext
              cases hi
              obtain ⟨e', he'⟩ := extend_contents hext
              rw [he', n2]
              rfl
            · cases hi
            · cases hi
      omega
    · left
      split at hi
      · cases hi; rw [n2]
      · split at hi
        · cases hi
        · split at hi
          · rename_i hext
            cases hi
            unfold extend at hext
            split at hext
            · cases hext
            · cases hext
            simp only at hext
            split at hext
            · cases hext; simp only [n2]
            · cases hext
            · cases hext
          · cases hi
          · cases hi

/-! ### Stores -/

theorem dir_sound : SoundStore dirM DirHolds where
  held now d k b h := by
    obtain ⟨f, hf, _, hd, _⟩ := RvServer.load_some h
    cases hd
    exact ⟨f, hf, rfl⟩
  empty k b h := by
    obtain ⟨f, hf, _⟩ := h
    cases hf
  load now d k k' b h := by
    obtain ⟨f, hf, h2⟩ := h
    exact ⟨f, RvServer.load_sub hf, h2⟩
  put d k k' b b' hk hk' h := by
    obtain ⟨f, hf, h2⟩ := h
    obtain ⟨_, h3, _, h5⟩ := RvServer.store_good (d := d) hk b
    by_cases he : k' = k
    · subst he
      have : some f = some _ := hf.symm.trans h3
      cases this
      exact .inr ⟨rfl, h2.symm⟩
    · refine .inl ⟨f, ?_, h2⟩
      rw [← h5 _ (fun hh => he (good_escape_injective hk' hk hh)) (good_ne_tmp hk' _)]
      exact hf
  maintain now ls d k b h := by
    obtain ⟨f, hf, h2⟩ := h
    exact ⟨f, RvServer.maintain_sub _ _ _ _ _ hf, h2⟩

theorem db_sound : SoundStore dbM DbHolds where
  held now t k b h := by
    have h : dbLoad some t k = .ok (some b) := h
    unfold dbLoad at h
    split at h
    · cases h
    rename_i r hr
    cases h
    exact ⟨r, List.mem_of_find?_eq_some hr, by simpa using List.find?_some hr, rfl⟩
  empty k b h := by
    obtain ⟨r, hr, _⟩ := h
    cases hr
  load now t k k' b h := h
  put t k k' b b' hk hk' h := by
    obtain ⟨r, hr, h1, h2⟩ := h
    have hr : r ∈ (dbStore t k b).1 := hr
    unfold dbStore at hr
    split at hr
    · exact .inl ⟨r, hr, h1, h2⟩
    · rcases List.mem_append.1 hr with hr | hr
      · exact .inl ⟨r, hr, h1, h2⟩
      · simp only [List.mem_singleton] at hr
        subst hr
        exact .inr ⟨h1.symm, h2.symm⟩
  maintain now ls t k b h := by
    obtain ⟨r, hr, h1, h2⟩ := h
    have hr : r ∈ dbMaintain .manufacturer now t := hr
    unfold dbMaintain at hr
    exact ⟨r, (List.mem_filter.1 hr).1, h1, h2⟩

attribute [local irreducible] second

theorem load_bare (now : Nat) (d : Dir) (k : Name) (f : File) (hf : d (escape k) = some f)
    (h : f.xattrs (xattrName ttlKey) = none) : Store.load some now d k = (d, .ok (some f.content)) := by
  have he : fileExpired now f = .ok false := by unfold fileExpired; rw [h]
  unfold Store.load
  rw [hf]
  simp only [he, decodeFile]

theorem load_other (now : Nat) (d : Dir) (k n : Name) (f : File) (hn : d n = some f)
    (h : f.xattrs (xattrName ttlKey) = none) : (Store.load some now d k).1 n = some f := by
  by_cases he : n = escape k
  · subst he
    rw [load_bare now d k f hn h]
    exact hn
  · unfold Store.load
    cases d (escape k) with
    | none => exact hn
    | some f' =>
      simp only
      cases fileExpired now f' with
      | err e => exact hn
      | panic => exact hn
      | ok b =>
        cases b with
        | true => simp only [Dir.erase]; rw [if_neg he]; exact hn
        | false => exact hn

theorem dir_load_has (now : Nat) {d : Dir} {k k' : Name} {b : Bytes} (h : DirHas d k' b) :
    DirHas (dirM.load now d k).1 k' b := by
  obtain ⟨f, hf, h1, h2⟩ := h
  exact ⟨f, load_other now d k _ f hf h2, h1, h2⟩

theorem dir_found (now : Nat) {d : Dir} {k : Name} {b : Bytes} (h : DirHas d k b) :
    (dirM.load now d k).2 = .ok (some b) := by
  obtain ⟨f, hf, h1, h2⟩ := h
  have := congrArg Prod.snd (load_bare now d k f hf h2)
  rw [h1] at this
  exact this

/-- Maintenance keeps what removing files with a time to live keeps. -/
theorem maintain_keeps (P : Dir → Prop) (now : Nat)
    (he : ∀ d x f' tb, P d → d x = some f' → f'.xattrs (xattrName ttlKey) = some tb → P (d.erase x))
    (ls : List Name) (d : Dir) (hd : P d) : P (Store.maintain now d ls).1 := by
  induction ls generalizing d with
  | nil => exact hd
  | cons x r ih =>
    unfold Store.maintain
    split
    · exact ih d hd
    · rename_i f' hx
      split
      · exact ih d hd
      · rename_i tb ht
        split
        · exact hd
        · exact hd
        · split
          · exact ih d hd
          · exact ih _ (he d x f' tb hd hx ht)

theorem dir_maintain_has (now : Nat) (ls : List Name) {d : Dir} {k : Name} {b : Bytes} (h : DirHas d k b) :
    DirHas (dirM.maintain now ls d) k b := by
  refine maintain_keeps (fun d => DirHas d k b) now ?_ ls d h
  intro d x f' tb ⟨f, hf, h1, h2⟩ hx ht
  have hne : escape k ≠ x := by
    intro he
    rw [← he, hf] at hx
    have := Option.some.inj hx
    rw [← this, h2] at ht
    cases ht
  refine ⟨f, ?_, h1, h2⟩
  simp only [Dir.erase]
  rw [if_neg hne]
  exact hf

theorem dir_keep : KeepStore dirM DirInv DirHas where
  inv_empty n f h := nomatch h
  inv_load now d k hi n f hf := hi n f (RvServer.load_sub hf)
  inv_put d k b hk hi n f hf := by
    obtain ⟨_, h3, h4, h5⟩ := RvServer.store_good (d := d) hk b
    by_cases h1 : n = escape k
    · subst h1
      have : some f = some _ := hf.symm.trans h3
      cases this
      simp only [attrsOf]
      cases ht : d (tmpName (escape k)) with
      | none => rfl
      | some t => exact hi _ _ ht
    · by_cases h2 : n = tmpName (escape k)
      · subst h2
        have : some f = none := hf.symm.trans h4
        cases this
      · exact hi n f ((h5 n h1 h2).symm.trans hf)
  inv_maintain now ls d hi n f hf := hi n f (RvServer.maintain_sub _ _ _ _ _ hf)
  put d k b hi hk _ := by
    obtain ⟨_, h3, _, _⟩ := RvServer.store_good (d := d) hk b
    refine ⟨_, h3, rfl, ?_⟩
    simp only [attrsOf]
    cases ht : d (tmpName (escape k)) with
    | none => rfl
    | some t => exact hi _ _ ht
  other d k k' b b' hi hk hk' hne h := by
    obtain ⟨f, hf, h1, h2⟩ := h
    obtain ⟨_, _, _, h5⟩ := RvServer.store_good (d := d) hk b
    refine ⟨f, ?_, h1, h2⟩
    rw [← hf]
    exact h5 _ (fun hh => hne (good_escape_injective hk' hk hh)) (good_ne_tmp hk' _)
  load now d k k' b h := dir_load_has now h
  maintain now ls d k b h := dir_maintain_has now ls h
  found now d k b h := dir_found now h
  nopanic d k b hk h := by
    have := (RvServer.store_good (d := d) hk b).1
    rw [show (dirM.put d k b).2 = (Store.store d k [b]).2 from rfl, this] at h
    cases h

theorem find_filter {α : Type} {p q : α → Bool} {t : List α} {r : α} (h : t.find? p = some r) (hq : q r = true) :
    (t.filter q).find? p = some r := by
  induction t with
  | nil => cases h
  | cons x t ih =>
    rw [List.find?_cons] at h
    split at h
    · rename_i hx
      cases h
      rw [List.filter_cons, if_pos hq, List.find?_cons, hx]
    · rename_i hx
      rw [List.filter_cons]
      split
      · rw [List.find?_cons, hx]
        exact ih h
      · exact ih h

theorem db_keep : KeepStore dbM (fun _ => True) DbHas where
  inv_empty := trivial
  inv_load _ _ _ _ := trivial
  inv_put _ _ _ _ _ := trivial
  inv_maintain _ _ _ _ := trivial
  put t k b _ hk h := by
    have h : (dbStore t k b).2 = .ok () := h
    change DbHas (dbStore t k b).1 k b
    unfold dbStore at h ⊢
    split at h
    · cases h
    rename_i hn
    rw [if_neg hn]
    refine ⟨⟨k, b, none, none, none⟩, ?_, rfl, rfl⟩
    have : t.find? (fun r => decide (r.guid = k)) = none := by
      rw [List.find?_eq_none]
      intro r hr hg
      exact hn (List.any_eq_true.2 ⟨r, hr, hg⟩)
    simp [List.find?_append, this]
  other t k k' b b' _ _ _ _ h := by
    obtain ⟨r, hr, h1, h2⟩ := h
    change DbHas (dbStore t k b).1 k' b'
    unfold dbStore
    split
    · exact ⟨r, hr, h1, h2⟩
    · exact ⟨r, by simp only [List.find?_append, hr, Option.some_or], h1, h2⟩
  load _ _ _ _ _ h := h
  maintain now ls t k b h := by
    obtain ⟨r, hr, h1, h2⟩ := h
    change DbHas (dbMaintain .manufacturer now t) k b
    unfold dbMaintain
    exact ⟨r, find_filter hr (by rw [h2]), h1, h2⟩
  found now t k b h := by
    obtain ⟨r, hr, h1, h2⟩ := h
    change dbLoad some t k = _
    unfold dbLoad
    rw [hr]
    simp only [h1]
  nopanic t k b _ h := by
    have h : (dbStore t k b).2 = .panic := h
    unfold dbStore at h
    split at h <;> cases h

end Verif.MfgServer
