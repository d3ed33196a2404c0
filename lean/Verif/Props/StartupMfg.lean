import Verif.Model.StartupMfg
import Verif.Props.Startup
import Verif.Props.MfgKept
/-!
C96: a manufacturing server works as its settings say, or does not start.
-/
namespace Verif.Startup
open Verif Verif.Settings

/-! ### Specification -/

/-- The settings have a value for `b` in the section `a`. -/
def Given (S : Scalars) (v : Val) (a b : String) : Prop := ∃ t, field v.fields a = some t ∧ Has S t b

/-- The settings name, as an absolute path at the place `path`, a file which holds `x`. -/
def FileOf {R : OwnerServer.OwnerEnv} {α : Type} (S : Scalars) (W : World R) (v : Val) (path : List String) (parse : Bytes → Option α)
    (x : α) : Prop :=
  ∃ s p b, v.at path = some s ∧ S.text s = some p ∧ p.toList.head? = some '/' ∧ W.file p = some b ∧ parse b = some x

/-- The settings say that devices may be initialised without DIUN. -/
def PlainDi (S : Reads) (v : Val) : Prop :=
  ∃ s, v.at ["protocols", "plain_di"] = some s ∧ S.isNull s = false ∧ S.bool s = some true

/-- The names by which storages are known in settings. -/
def storageName : MfgServer.KeyStorage → String
  | .fileSystem => "FileSystem"
  | .tpm => "Tpm"

/-- The section `t` of the settings describes the DIUN configuration `d`. -/
structure Describes {R : MfgServer.MfgEnv} (S : Reads) (W : MfgWorld R) (t : Val) (d : MfgServer.Diun R) : Prop where
  key : FileOf S.toScalars W.toWorld t ["key_path"] W.keyFromDer d.key
  cert : ∃ l, l ≠ [] ∧ FileOf S.toScalars W.toWorld t ["cert_path"] W.stackFromPem l ∧ W.chainPub l = some d.pub
  string : ∃ x n, field t.fields "mfg_string_type" = some x ∧ S.variant ["SerialNumber", "MACAddress"] x = some n ∧
    (n = "SerialNumber" ∧ d.stringType = .serialNumber ∨ n = "MACAddress" ∧ d.stringType = .macAddress)
  type : ∃ x n, field t.fields "key_type" = some x ∧ S.variant ["SECP256R1", "SECP384R1"] x = some n ∧
    (n = "SECP256R1" ∧ d.keyType = .ecdsa256 ∨ n = "SECP384R1" ∧ d.keyType = .ecdsa384)
  storage : ∃ s l, t.at ["allowed_key_storage_types"] = some s ∧ S.items s = some l ∧
    l.map (S.variant ["FileSystem", "Tpm"]) = d.storage.map fun k => some (storageName k)

/-! ### Proofs -/

theorem required_ok {α : Type} {f : Val → Res Fail α} {v : Val} {name : String} {a : α} (h : required f v name = .ok a) :
    ∃ x, field v.fields name = some x ∧ f x = .ok a := by
  unfold required at h
  cases hx : field v.fields name with
  | none => rw [hx] at h; cases h
  | some x => rw [hx] at h; exact ⟨x, rfl, h⟩

theorem structOf_ok {α : Type} {f : Val → Res Fail α} {v : Val} {a : α} (h : structOf f v = .ok a) : f v = .ok a := by
  cases v with
  | leaf s => cases h
  | table l => exact h

theorem at_sub {v t : Val} {a : String} {p : List String} (h : field v.fields a = some t) : v.at (a :: p) = t.at p := by
  rw [at_fields, h]

theorem oneOf_ok {α : Type} {S : Reads} {names : List (String × α)} {x : Val} {a : α} (h : oneOf S names x = .ok a) :
    ∃ n, S.variant (names.map (·.1)) x = some n ∧ names.lookup n = some a := by
  unfold oneOf at h
  split at h
  · cases h
  · rename_i n hn
    split at h
    · cases h
    · rename_i a' ha
      cases h
      exact ⟨n, hn, ha⟩

theorem lookup_two {α : Type} {n a b : String} {x y z : α} (h : [(a, x), (b, y)].lookup n = some z) :
    (n = a ∧ z = x) ∨ (n = b ∧ z = y) := by
  simp only [List.lookup_cons, List.lookup_nil] at h
  split at h
  · rename_i e
    cases h
    exact .inl ⟨by simpa using e, rfl⟩
  · split at h
    · rename_i e
      cases h
      exact .inr ⟨by simpa using e, rfl⟩
    · cases h

theorem each_ok {α : Type} {f : Val → Res Fail α} : ∀ {l : List Val} {r : List α}, each f l = .ok r → l.map f = r.map Res.ok
  | [], r, h => by cases h; rfl
  | x :: l, r, h => by
    obtain ⟨a, h1, h⟩ := Res.bind_eq_ok.1 h
    obtain ⟨b, h2, h⟩ := Res.bind_eq_ok.1 h
    cases h
    rw [List.map_cons, List.map_cons, h1, each_ok h2]

theorem storage_map {S : Reads} : ∀ {l : List Val} {r : List MfgServer.KeyStorage}, l.map (oneOf S storageTypes) = r.map Res.ok →
    l.map (S.variant ["FileSystem", "Tpm"]) = r.map fun k => some (storageName k)
  | [], [], _ => rfl
  | [], y :: r, h => by cases h
  | x :: l, [], h => by cases h
  | x :: l, y :: r, h => by
    simp only [List.map_cons, List.cons.injEq] at h ⊢
    obtain ⟨n, hn, hl⟩ := oneOf_ok h.1
    refine ⟨?_, storage_map h.2⟩
    rw [show (["FileSystem", "Tpm"] : List String) = storageTypes.map (·.1) from rfl, hn]
    rcases lookup_two hl with ⟨rfl, rfl⟩ | ⟨rfl, rfl⟩ <;> rfl

theorem required_path {S : Scalars} {v : Val} {name p : String} (h : required (pathOf S) v name = .ok p) :
    ∃ s, v.at [name] = some s ∧ S.text s = some p ∧ p.toList.head? = some '/' := by
  obtain ⟨x, hx, h⟩ := required_ok h
  obtain ⟨s, rfl, hs, ha⟩ := pathOf_ok h
  exact ⟨s, at_of_field hx, hs, ha⟩

section
variable {R : MfgServer.MfgEnv} {S : Reads} {W : MfgWorld R} {v : Val} {rest : Bool} {cfg : MfgServer.Config R}

theorem got_some {α : Type} {parse : Bytes → Option α} {p : String} {a : α} (h : got W parse p = some a) :
    ∃ b, W.file p = some b ∧ parse b = some a := by
  unfold got at h
  exact Option.bind_eq_some_iff.1 h

theorem file_of {α : Type} {parse : Bytes → Option α} {t : Val} {name p : String} {a : α}
    (h : required (pathOf S.toScalars) t name = .ok p) (hg : got W parse p = some a) :
    FileOf S.toScalars W.toWorld t [name] parse a := by
  obtain ⟨s, h1, h2, h3⟩ := required_path h
  obtain ⟨b, h4, h5⟩ := got_some hg
  exact ⟨s, p, b, h1, h2, h3, h4, h5⟩

theorem file_sub {α : Type} {parse : Bytes → Option α} {t : Val} {a : String} {path : List String} {x : α}
    (ht : field v.fields a = some t) (h : FileOf S.toScalars W.toWorld t path parse x) :
    FileOf S.toScalars W.toWorld v (a :: path) parse x := by
  obtain ⟨s, p, b, h1, h2⟩ := h
  exact ⟨s, p, b, by rw [at_sub ht]; exact h1, h2⟩

theorem given_iff {t : Val} {a b : String} (ht : field v.fields a = some t) : Given S.toScalars v a b ↔ Has S.toScalars t b := by
  constructor
  · rintro ⟨t', h1, h2⟩
    rw [ht] at h1
    cases h1
    exact h2
  · exact fun h => ⟨t, ht, h⟩

/-- All that start-up makes of what was read. -/
theorem startup_all {s : MfgServer.Settings R} (h : MfgServer.startup R s = some cfg) :
    s.caKey = some cfg.caKey ∧ (∃ l, s.caChain = some l ∧ l ≠ [] ∧ cfg.caChain = R.mkChain l) ∧ s.mfgCert = some cfg.mfgCert ∧
      MfgServer.optional s.mfgKey = some cfg.mfgKey ∧ MfgServer.optional s.owner = some cfg.owner ∧
      cfg.mfgKey.isNone = cfg.owner.isNone ∧ MfgServer.optional s.diun = some cfg.diun ∧ s.rv = some cfg.rv ∧
      cfg.enableDi = s.plainDi.getD false ∧ cfg.keyStore = s.keyStore := by
  unfold MfgServer.startup at h
  simp only [Option.bind_eq_bind, Option.bind_eq_some_iff] at h
  obtain ⟨caKey, h1, chain, h2, h⟩ := h
  split at h
  · cases h
  rename_i hne
  simp only [Option.bind_eq_some_iff] at h
  obtain ⟨mc, h3, mk, h4, ow, h5, h⟩ := h
  split at h
  · cases h
  rename_i hp
  simp only [Option.bind_eq_some_iff] at h
  obtain ⟨d, h6, rv, h7, h⟩ := h
  cases h
  refine ⟨h1, ⟨chain, h2, ?_, rfl⟩, h3, h4, h5, ?_, h6, h7, rfl, rfl⟩
  · intro e
    rw [e] at hne
    exact hne rfl
  · simpa using hp

/-- What was read, and what the server makes of it. -/
theorem manufacturing_ok (h : manufacturing S W rest v = .ok cfg) :
    ∃ pv mv di diun rv p store, field v.fields "protocols" = some pv ∧ field v.fields "manufacturing" = some mv ∧
      field v.fields "rendezvous_info" = some rv ∧ keyStoreOf S v = .ok store ∧
      optional S.toScalars (boolOf S) pv "plain_di" = .ok di ∧ optional S.toScalars (structOf (diunOf S)) pv "diun" = .ok diun ∧
      pathsOf S mv = .ok p ∧
      MfgServer.startup R ⟨got W W.keyFromDer p.caKey, got W W.stackFromPem p.caChain, got W W.certFromPem p.cert,
        p.key.map (got W W.keyFromDer), p.owner.map (fun q => (got W W.certFromPem q).bind R.certPub), diun.map (diunFrom W),
        W.rvInfo rv, di, store⟩ = some cfg := by
  obtain ⟨s, h1, h⟩ := Res.bind_eq_ok.1 h
  cases rest with
  | false => cases h
  | true =>
    have h : (match MfgServer.startup R s with | none => Res.err Fail.parse | some cfg => Res.ok cfg) = Res.ok cfg := h
    cases hs : MfgServer.startup R s with
    | none => rw [hs] at h; cases h
    | some c' =>
      rw [hs] at h
      cases h
      obtain ⟨store, e1, h1⟩ := Res.bind_eq_ok.1 h1
      obtain ⟨⟨di, diun⟩, e2, h1⟩ := Res.bind_eq_ok.1 h1
      obtain ⟨rv, e3, h1⟩ := Res.bind_eq_ok.1 h1
      obtain ⟨p, e4, h1⟩ := Res.bind_eq_ok.1 h1
      cases h1
      obtain ⟨pv, f1, e2⟩ := required_ok e2
      obtain ⟨rv', f2, e3⟩ := required_ok e3
      cases e3
      obtain ⟨mv, f3, e4⟩ := required_ok e4
      have e2 := structOf_ok e2
      obtain ⟨di', e5, e2⟩ := Res.bind_eq_ok.1 e2
      obtain ⟨diun', e6, e2⟩ := Res.bind_eq_ok.1 e2
      cases e2
      exact ⟨pv, mv, di, diun, rv, p, store, f1, f3, f2, e1, e5, e6, structOf_ok e4, hs⟩

theorem pathsOf_ok {p : Paths} (h : pathsOf S v = .ok p) :
    required (pathOf S.toScalars) v "manufacturer_cert_path" = .ok p.cert ∧
    required (pathOf S.toScalars) v "device_cert_ca_private_key" = .ok p.caKey ∧
    required (pathOf S.toScalars) v "device_cert_ca_chain" = .ok p.caChain ∧
    optional S.toScalars (pathOf S.toScalars) v "owner_cert_path" = .ok p.owner ∧
    optional S.toScalars (pathOf S.toScalars) v "manufacturer_private_key" = .ok p.key := by
  obtain ⟨a, h1, h⟩ := Res.bind_eq_ok.1 h
  obtain ⟨b, h2, h⟩ := Res.bind_eq_ok.1 h
  obtain ⟨c, h3, h⟩ := Res.bind_eq_ok.1 h
  obtain ⟨d, h4, h⟩ := Res.bind_eq_ok.1 h
  obtain ⟨e, h5, h⟩ := Res.bind_eq_ok.1 h
  cases h
  exact ⟨h1, h2, h3, h4, h5⟩

theorem diun_describes {t : Val} {s : DiunSettings} {d : MfgServer.Diun R} (h : diunOf S t = .ok s) (hd : diunFrom W s = some d) :
    Describes S W t d := by
  obtain ⟨a, h1, h⟩ := Res.bind_eq_ok.1 h
  obtain ⟨b, h2, h⟩ := Res.bind_eq_ok.1 h
  obtain ⟨c, h3, h⟩ := Res.bind_eq_ok.1 h
  obtain ⟨kp, h4, h⟩ := Res.bind_eq_ok.1 h
  obtain ⟨cp, h5, h⟩ := Res.bind_eq_ok.1 h
  cases h
  unfold diunFrom at hd
  simp only [Option.bind_eq_bind, Option.bind_eq_some_iff] at hd
  obtain ⟨k, g1, l, g2, hd⟩ := hd
  split at hd
  · cases hd
  rename_i hne
  simp only [Option.bind_eq_some_iff] at hd
  obtain ⟨pub, g3, hd⟩ := hd
  cases hd
  refine ⟨file_of h4 g1, ⟨l, fun e => hne (by rw [e]; rfl), file_of h5 g2, g3⟩, ?_, ?_, ?_⟩
  · obtain ⟨x, hx, h1⟩ := required_ok h1
    obtain ⟨n, hn, h1⟩ := oneOf_ok h1
    exact ⟨x, n, hx, hn, lookup_two h1⟩
  · obtain ⟨x, hx, h2⟩ := required_ok h2
    obtain ⟨n, hn, h2⟩ := oneOf_ok h2
    exact ⟨x, n, hx, hn, lookup_two h2⟩
  · obtain ⟨x, hx, h3⟩ := required_ok h3
    cases x with
    | table l => cases h3
    | leaf s =>
      simp only [listOf] at h3
      split at h3
      · rename_i items hi
        refine ⟨s, items, at_of_field hx, hi, ?_⟩
        exact storage_map (each_ok h3)
      · cases h3

/-- **C96**, keys and certificates: if a manufacturing server starts, its own certificate, the key and (not empty) chain it makes
device certificates with, its key and its owner are those of the files the settings name. It has a key and an owner to extend vouchers
to if and only if the settings name both files; and it does not start if they name just one. Missing: that key and certificate belong
together (`C96_keys_violated`). -/
theorem C96_files_partial (h : manufacturing S W rest v = .ok cfg) :
    FileOf S.toScalars W.toWorld v ["manufacturing", "manufacturer_cert_path"] W.certFromPem cfg.mfgCert ∧
    FileOf S.toScalars W.toWorld v ["manufacturing", "device_cert_ca_private_key"] W.keyFromDer cfg.caKey ∧
    (∃ l, l ≠ [] ∧ FileOf S.toScalars W.toWorld v ["manufacturing", "device_cert_ca_chain"] W.stackFromPem l ∧ cfg.caChain = R.mkChain l) ∧
    (Given S.toScalars v "manufacturing" "manufacturer_private_key" ↔ Given S.toScalars v "manufacturing" "owner_cert_path") ∧
    (Given S.toScalars v "manufacturing" "owner_cert_path" → ∃ k cert o,
      FileOf S.toScalars W.toWorld v ["manufacturing", "manufacturer_private_key"] W.keyFromDer k ∧
      FileOf S.toScalars W.toWorld v ["manufacturing", "owner_cert_path"] W.certFromPem cert ∧ R.certPub cert = some o ∧
      cfg.mfgKey = some k ∧ cfg.owner = some o) ∧
    (¬ Given S.toScalars v "manufacturing" "owner_cert_path" → cfg.mfgKey = none ∧ cfg.owner = none) := by
  obtain ⟨pv, mv, di, diun, rv, p, store, -, hm, -, -, -, -, hp, hs⟩ := manufacturing_ok h
  obtain ⟨s1, ⟨l, s2, s3, s4⟩, s5, s6, s7, s8, -⟩ := startup_all hs
  obtain ⟨p1, p2, p3, p4, p5⟩ := pathsOf_ok hp
  have opt : ∀ {name : String} {o : Option String} (hh : Has S.toScalars mv name)
      (ho : optional S.toScalars (pathOf S.toScalars) mv name = .ok o), ∃ s q, mv.at [name] = some s ∧ S.text s = some q ∧
        q.toList.head? = some '/' ∧ o = some q := by
    intro name o hh ho
    obtain ⟨x, q, hx, hq, rfl⟩ := optional_has ho hh
    obtain ⟨s, rfl, e1, e2⟩ := pathOf_ok hq
    exact ⟨s, q, at_of_field hx, e1, e2, rfl⟩
  have key : Has S.toScalars mv "manufacturer_private_key" → ∃ k,
      FileOf S.toScalars W.toWorld mv ["manufacturer_private_key"] W.keyFromDer k ∧ cfg.mfgKey = some k := by
    intro hh
    obtain ⟨s, q, e1, e2, e3, e4⟩ := opt hh p5
    rw [e4] at s6
    simp only [Option.map_some] at s6
    cases hg : got W W.keyFromDer q with
    | none => rw [hg] at s6; cases s6
    | some k =>
      rw [hg] at s6
      obtain ⟨b, e5, e6⟩ := got_some hg
      exact ⟨k, ⟨s, q, b, e1, e2, e3, e5, e6⟩, (Option.some.inj s6).symm⟩
  have own : Has S.toScalars mv "owner_cert_path" → ∃ cert o,
      FileOf S.toScalars W.toWorld mv ["owner_cert_path"] W.certFromPem cert ∧ R.certPub cert = some o ∧ cfg.owner = some o := by
    intro hh
    obtain ⟨s, q, e1, e2, e3, e4⟩ := opt hh p4
    rw [e4] at s7
    simp only [Option.map_some] at s7
    cases hg : got W W.certFromPem q with
    | none => rw [hg] at s7; cases s7
    | some cert =>
      rw [hg] at s7
      simp only [Option.bind_some] at s7
      cases ho : R.certPub cert with
      | none => rw [ho] at s7; cases s7
      | some o =>
        rw [ho] at s7
        obtain ⟨b, e5, e6⟩ := got_some hg
        exact ⟨cert, o, ⟨s, q, b, e1, e2, e3, e5, e6⟩, ho, (Option.some.inj s7).symm⟩
  have nokey : ¬ Has S.toScalars mv "manufacturer_private_key" → cfg.mfgKey = none := by
    intro hh
    rw [optional_hasnt hh] at p5
    rw [← Res.ok.inj p5] at s6
    exact (Option.some.inj s6).symm
  have noown : ¬ Has S.toScalars mv "owner_cert_path" → cfg.owner = none := by
    intro hh
    rw [optional_hasnt hh] at p4
    rw [← Res.ok.inj p4] at s7
    exact (Option.some.inj s7).symm
  have both : Has S.toScalars mv "manufacturer_private_key" ↔ Has S.toScalars mv "owner_cert_path" := by
    constructor
    · intro hk
      apply Classical.byContradiction
      intro ho
      obtain ⟨k, -, e⟩ := key hk
      rw [noown ho, e] at s8
      cases s8
    · intro ho
      apply Classical.byContradiction
      intro hk
      obtain ⟨-, o, -, -, e⟩ := own ho
      rw [nokey hk, e] at s8
      cases s8
  rw [given_iff hm, given_iff hm]
  refine ⟨file_sub hm (file_of p1 s5), file_sub hm (file_of p2 s1), ⟨l, s3, file_sub hm (file_of p3 s2), s4⟩, both, ?_, ?_⟩
  · intro ho
    obtain ⟨k, e1, e2⟩ := key (both.2 ho)
    obtain ⟨cert, o, e3, e4, e5⟩ := own ho
    exact ⟨k, cert, o, file_sub hm e1, file_sub hm e3, e4, e2, e5⟩
  · exact fun ho => ⟨nokey (fun hk => ho (both.1 hk)), noown ho⟩

/-- **C96**, protocols: a manufacturing server that starts has plain DI enabled if and only if the settings say `true`, DIUN if and
only if they have a section for it, which then describes its configuration; and it uses a store of public keys if and only if they
configure one. -/
theorem C96_protocols (h : manufacturing S W rest v = .ok cfg) :
    (cfg.enableDi = true ↔ PlainDi S v) ∧
    (Given S.toScalars v "protocols" "diun" → ∃ pv t d, field v.fields "protocols" = some pv ∧ field pv.fields "diun" = some t ∧
      cfg.diun = some d ∧ Describes S W t d) ∧
    (¬ Given S.toScalars v "protocols" "diun" → cfg.diun = none) ∧
    (cfg.keyStore = true ↔ ∃ l, field v.fields "public_key_store_driver" = some (.table l)) := by
  obtain ⟨pv, mv, di, diun, rv, p, store, hp, -, -, hk, hdi, hdu, -, hs⟩ := manufacturing_ok h
  obtain ⟨-, -, -, -, -, -, s1, -, s2, s3⟩ := startup_all hs
  rw [given_iff hp]
  refine ⟨?_, ?_, ?_, ?_⟩
  · rw [s2]
    constructor
    · intro he
      cases hd : di with
      | none => rw [hd] at he; cases he
      | some b =>
        have hb : b = true := by rw [hd] at he; exact he
        rw [hd, hb] at hdi
        have hh : Has S.toScalars pv "plain_di" := Classical.byContradiction fun hn => by
          rw [optional_hasnt hn] at hdi
          cases hdi
        obtain ⟨x, a, hx, ha, e⟩ := optional_has hdi hh
        cases e
        obtain ⟨x', hx', hn⟩ := hh
        rw [hx] at hx'
        cases hx'
        cases x with
        | table l => cases ha
        | leaf s =>
          refine ⟨s, by rw [at_sub hp]; exact at_of_field hx, hn s rfl, ?_⟩
          simp only [boolOf] at ha
          split at ha
          · rename_i b' hb'
            cases ha
            exact hb'
          · cases ha
    · rintro ⟨s, h1, h2, h3⟩
      rw [at_sub hp, at_fields] at h1
      have hx : field pv.fields "plain_di" = some (.leaf s) := by
        cases hx : field pv.fields "plain_di" with
        | none => rw [hx] at h1; cases h1
        | some x =>
          rw [hx] at h1
          cases x with
          | leaf s' => cases h1; rfl
          | table l => simp only [at_table_nil] at h1; cases h1
      obtain ⟨x, a, hx', ha, e⟩ := optional_has hdi ⟨_, hx, fun s' e => by cases e; exact h2⟩
      rw [hx] at hx'
      cases hx'
      simp only [boolOf, h3] at ha
      cases ha
      rw [e]
      rfl
  · intro hh
    obtain ⟨t, s, ht, hs', rfl⟩ := optional_has hdu hh
    simp only [Option.map_some] at s1
    cases hd : diunFrom W s with
    | none => rw [hd] at s1; cases s1
    | some d =>
      rw [hd] at s1
      exact ⟨pv, t, d, hp, ht, (Option.some.inj s1).symm, diun_describes (structOf_ok hs') hd⟩
  · intro hh
    rw [optional_hasnt hh] at hdu
    rw [← Res.ok.inj hdu] at s1
    exact (Option.some.inj s1).symm
  · rw [s3]
    unfold keyStoreOf at hk
    cases hx : field v.fields "public_key_store_driver" with
    | none => rw [hx] at hk; cases hk
    | some x =>
      rw [hx] at hk
      cases x with
      | table l =>
        cases hk
        exact ⟨fun _ => ⟨l, rfl⟩, fun _ => rfl⟩
      | leaf s =>
        dsimp only at hk
        split at hk
        · cases hk
          exact ⟨(fun e => by cases e), (fun ⟨l, e⟩ => by cases e)⟩
        · cases hk

/-- **C96** from the configuration files on (with **C82**): a manufacturing server that starts has plain DI enabled if and only if the
last of the files which says something about it says `true`. -/
theorem C96_last_word {y : Sys} (hy : ∀ p l, y.file p = .holds l → (Val.table l).Wf)
    (h : fromFiles y "manufacturing-server" (manufacturing S W rest) = .ok cfg) :
    ∃ glob : List String, y.glob (pattern y "manufacturing-server") = some (glob.map some) ∧ (cfg.enableDi = true ↔ ∃ s,
      lastWord ["protocols", "plain_di"] (found y (order "manufacturing-server" (y.env (confDirEnv "manufacturing-server"))
        (y.env (confEnv "manufacturing-server")) fun _ => glob)) = .gives s ∧ S.isNull s = false ∧ S.bool s = some true) := by
  unfold fromFiles at h
  cases hs : settingsFor y "manufacturing-server" with
  | err e => rw [hs] at h; cases h
  | panic => rw [hs] at h; cases h
  | ok v =>
    rw [hs] at h
    obtain ⟨glob, hg, hl⟩ := C82_last_word hy hs
    refine ⟨glob, hg, (C96_protocols h).1.trans ⟨?_, ?_⟩⟩
    · rintro ⟨s, h1, h2⟩
      exact ⟨s, (hl _ _).1 h1, h2⟩
    · rintro ⟨s, h1, h2⟩
      exact ⟨s, (hl _ _).2 h1, h2⟩

/-- A server without DIUN has never answered a Connect. -/
theorem connected_diun {c : Bool} {B : MfgServer.MStore} {Id : Type} [DecidableEq Id] {idOf : List Char → Option Id} {aead : Http.Aead}
    {encode : MfgServer.Resp → Bytes} {h : MfgServer.Hist R c B cfg idOf aead encode} {i : Id} {ks : Http.Keys}
    (hc : MfgServer.Connected R c B cfg idOf aead encode h i ks) : cfg.diun ≠ none := by
  intro hn
  obtain ⟨h1, rq, h2, m, key, random, flag, token, tok, -, ht, -, -, -, -, -, hr, -⟩ := hc
  unfold Http.step at hr
  split at hr
  · cases hr
  · rename_i a ha
    split at hr
    · cases hr
    · rename_i hh
      rw [MfgServer.server_handle] at hh
      simp only [Prod.mk.injEq] at hh
      rcases MfgServer.accepted_cases ha with ⟨e, -⟩ | ⟨e, -⟩ | ⟨e, -, -, m, -, hq⟩ | ⟨e, -⟩ | ⟨e, -⟩
      · rw [ht] at e; cases e
      · rw [ht] at e; cases e
      · have hx := MfgServer.answer_some hh.2
        rw [hq] at hx
        simp only [MfgServer.handleRes, MfgServer.connect, hn, MfgServer.keep] at hx
        cases hx
      · rw [ht] at e; cases e
      · rw [ht] at e; cases e

/-- **C96** through to what is done: every voucher in the store of a manufacturing server which was started was issued to a device
whose key was provided by DIUN with the configuration in the settings, or that stood in the store of public keys, where the settings
allow plain DI and configure such a store. Missing: that the key is kept in one of the storages allowed (`C96_storage_violated`). -/
theorem C96_admitted_partial (hs : manufacturing S W rest v = .ok cfg) {c : Bool} {B : MfgServer.MStore} {Id : Type} [DecidableEq Id]
    {idOf : List Char → Option Id} {aead : Http.Aead} {encode : MfgServer.Resp → Bytes} {Holds : B.W → Store.Name → Bytes → Prop}
    (K : MfgServer.SoundStore B Holds) (h : MfgServer.Hist R c B cfg idOf aead encode) {k : Store.Name} (hk : Store.Good k) {b : Bytes}
    (hb : Holds (MfgServer.reached R c B cfg idOf aead encode h).world k b) :
    ∃ h1 i ks info der g hd, h1 <+: h ∧ MfgServer.Started R c B cfg idOf aead encode h1 i ks info der g hd ∧
      ((∃ h0 ks', h0 <+: h1 ∧ MfgServer.Provided R c B cfg idOf aead encode h0 i der ks' ∧
          ∃ pv t d, field v.fields "protocols" = some pv ∧ field pv.fields "diun" = some t ∧ cfg.diun = some d ∧ Describes S W t d) ∨
       (PlainDi S v ∧ (∃ l, field v.fields "public_key_store_driver" = some (.table l)) ∧
          ∃ o : MfgServer.Oracle R, o.keys info.toList = .ok (some der))) := by
  obtain ⟨h1, rq, h2, i, ks, hmac, info, der, g, hd, s, w, g', rfl, -, hst, -, -, -, -⟩ := MfgServer.stored_origin K h k hk b hb
  refine ⟨h1, i, ks, info, der, g, hd, ⟨_, rfl⟩, hst, ?_⟩
  obtain ⟨p1, p2, p3, p4⟩ := C96_protocols hs
  obtain ⟨h0, rq0, hr, plain, raw, tok, e1, -, -, -, -, -, -, -, e9, -⟩ := hst
  rcases e9 with ⟨k', -, hp⟩ | ⟨hen, hks, hky⟩
  · refine .inl ⟨h0, k', ⟨_, e1.symm⟩, hp, ?_⟩
    obtain ⟨_, _, _, _, _, -, -, -, ⟨_, _, _, -, -, -, hc, -⟩, -⟩ := hp
    apply p2
    apply Classical.byContradiction
    intro hn
    exact connected_diun hc (p3 hn)
  · exact .inr ⟨p1.1 hen, p4.1 hks, rq0.oracle, hky⟩

/-- **C96**: a manufacturing server whose settings enable neither protocol issues no vouchers. -/
theorem C96_closed (hs : manufacturing S W rest v = .ok cfg) (hdi : ¬ PlainDi S v) (hdu : ¬ Given S.toScalars v "protocols" "diun")
    {c : Bool} {B : MfgServer.MStore} {Id : Type} [DecidableEq Id] {idOf : List Char → Option Id} {aead : Http.Aead}
    {encode : MfgServer.Resp → Bytes} {Holds : B.W → Store.Name → Bytes → Prop} (K : MfgServer.SoundStore B Holds)
    (h : MfgServer.Hist R c B cfg idOf aead encode) {k : Store.Name} (hk : Store.Good k) {b : Bytes} :
    ¬ Holds (MfgServer.reached R c B cfg idOf aead encode h).world k b := by
  intro hb
  obtain ⟨_, _, _, _, _, _, _, -, -, ⟨_, _, -, -, _, _, d, -, -, hd, -⟩ | ⟨hp, -⟩⟩ := C96_admitted_partial hs K h hk hb
  · rw [(C96_protocols hs).2.2.1 hdu] at hd
    cases hd
  · exact hdi hp

/-- **C96** through to what is done: every voucher in the store belongs to the owner whose certificate is in the file the settings
name; if they name none, to the manufacturer whose certificate they name. -/
theorem C96_owned (hs : manufacturing S W rest v = .ok cfg) {c : Bool} {B : MfgServer.MStore} {Id : Type} [DecidableEq Id]
    {idOf : List Char → Option Id} {aead : Http.Aead} {encode : MfgServer.Resp → Bytes} {Holds : B.W → Store.Name → Bytes → Prop}
    (K : MfgServer.SoundStore B Holds) (L : MfgServer.Laws R cfg) (h : MfgServer.Hist R c B cfg idOf aead encode)
    (hsm : MfgServer.SmallHeaders R c B cfg idOf aead encode h) {k : Store.Name} (hk : Store.Good k) {b : Bytes} (hsz : b.length < 2 ^ 63)
    (hb : Holds (MfgServer.reached R c B cfg idOf aead encode h).world k b) :
    ∃ ov cert, Voucher.deserialize c b = .ok (ov, []) ∧
      FileOf S.toScalars W.toWorld v ["manufacturing", "manufacturer_cert_path"] W.certFromPem cert ∧
      R.certPub cert = some ov.header.mfgKey ∧
      (Given S.toScalars v "manufacturing" "owner_cert_path" → ∃ p oc o, Voucher.verifyAll c ov = .ok [p] ∧
        Voucher.lastOwner ov.header.mfgKey [p] = o ∧
        FileOf S.toScalars W.toWorld v ["manufacturing", "owner_cert_path"] W.certFromPem oc ∧ R.certPub oc = some o) ∧
      (¬ Given S.toScalars v "manufacturing" "owner_cert_path" → ov.entries.contents = []) := by
  obtain ⟨pv, mv, di, diun, rv, p, store, -, -, -, -, -, -, -, hst⟩ := manufacturing_ok hs
  obtain ⟨ov, _, _, _, _, _, _, _, _, _, _, hrd, -, -, -, -, -, -, -, -, -, -, -, -, ⟨ho1, ho2⟩⟩ :=
    MfgServer.C43_consistent K L _ hst h hsm k hk b hsz hb
  obtain ⟨f1, -, -, -, f2, f3⟩ := C96_files_partial hs
  refine ⟨ov, cfg.mfgCert, hrd, f1, ho1, fun hg => ?_, fun hg => ?_⟩
  · obtain ⟨_, oc, o, -, e2, e3, -, e5⟩ := f2 hg
    rw [e5] at ho2
    obtain ⟨q, e6, e7⟩ := ho2
    exact ⟨q, oc, o, e6, e7, e2, e3⟩
  · rw [(f3 hg).2] at ho2
    exact ho2

/-- **C96** does not hold as documented: the store of public keys is said to be optional, but a server whose settings do not mention
it does not start. -/
theorem C96_key_store_violated (h : field v.fields "public_key_store_driver" = none) : manufacturing S W rest v = .err .missing := by
  unfold manufacturing mfgSettings keyStoreOf
  rw [h]
  rfl

theorem extend_header {E : Env} {c : Bool} {w w' : Voucher.Voucher E} {k : E.Priv} {x : Option E.Extra} {n : E.Pub}
    (h : Voucher.extend c w k x n = (w', .ok ())) : w'.header = w.header := by
  unfold Voucher.extend at h
  split at h
  · cases h
  · cases h
  simp only at h
  split at h
  · cases h; rfl
  · cases h
  · cases h

/-- A voucher which is extended when it is issued was extended with the key of its manufacturer. -/
theorem issue_matches {c : Bool} {k : R.E.Priv} {header : Voucher.Header R.E} {hmac : Hash} {ch : R.E.Chain} {ov : Voucher.Voucher R.E}
    (hk : cfg.mfgKey = some k) (h : MfgServer.issue R c cfg header hmac ch = .ok ov) : R.E.keyMatches ov.header.mfgKey k = true := by
  obtain ⟨w, hw, h⟩ := Res.bind_eq_ok.1 h
  rw [hk] at h
  simp only at h
  cases ho : cfg.owner with
  | none => rw [ho] at h; cases h
  | some next =>
    rw [ho] at h
    simp only at h
    split at h
    · rename_i w' e
      cases h
      rw [extend_header e]
      refine MfgServer.extend_matches ?_ e
      obtain ⟨hb, -, hw⟩ := Res.bind_eq_ok.1 hw
      obtain ⟨eb, -, hw⟩ := Res.bind_eq_ok.1 hw
      cases hw
      rfl
    · cases h
    · cases h

/-- Start-up does not compare the manufacturer's key with the certificate. If they do not belong together, the server runs, but no
device is ever initialised: there never is a voucher. -/
theorem C96_mismatch (hs : manufacturing S W rest v = .ok cfg) {k : R.E.Priv}
    (hkey : FileOf S.toScalars W.toWorld v ["manufacturing", "manufacturer_private_key"] W.keyFromDer k)
    (hgiven : Given S.toScalars v "manufacturing" "manufacturer_private_key")
    (hne : ∀ cert o, FileOf S.toScalars W.toWorld v ["manufacturing", "manufacturer_cert_path"] W.certFromPem cert →
      R.certPub cert = some o → R.E.keyMatches o k = false)
    {c : Bool} {B : MfgServer.MStore} {Id : Type} [DecidableEq Id]
    {idOf : List Char → Option Id} {aead : Http.Aead} {encode : MfgServer.Resp → Bytes} {Holds : B.W → Store.Name → Bytes → Prop}
    (K : MfgServer.SoundStore B Holds) (L : MfgServer.Laws R cfg) (h : MfgServer.Hist R c B cfg idOf aead encode)
    (hsm : MfgServer.SmallHeaders R c B cfg idOf aead encode h) {n : Store.Name} (hn : Store.Good n) {b : Bytes} (hsz : b.length < 2 ^ 63) :
    ¬ Holds (MfgServer.reached R c B cfg idOf aead encode h).world n b := by
  intro hb
  obtain ⟨pv, mv, di, diun, rv, p, store, -, -, -, -, -, -, -, hst⟩ := manufacturing_ok hs
  obtain ⟨f1, -, -, f2, f3, -⟩ := C96_files_partial hs
  obtain ⟨k', cert, o, e1, -, -, e2, -⟩ := f3 (f2.1 hgiven)
  have hkk : k' = k := by
    obtain ⟨s1, p1, b1, x1, x2, -, x3, x4⟩ := e1
    obtain ⟨s2, p2, b2, y1, y2, -, y3, y4⟩ := hkey
    rw [x1] at y1; cases y1
    rw [x2] at y2; cases y2
    rw [x3] at y3; cases y3
    rw [x4] at y4; cases y4
    rfl
  subst hkk
  obtain ⟨h1, rq, h2, i, ks, hmac, info, der, g, hd, s, ov, g', rfl, -, hstd, hp, hsv, hser, rfl⟩ :=
    MfgServer.stored_origin K h n hn b hb
  obtain ⟨_, _, _, _, hpair, _⟩ := MfgServer.startup_some hst
  have hsz' := hsm h1 i ks info der g hd ⟨_, rfl⟩ hstd
  obtain ⟨-, -, -, -, -, -, -, -, -, -, ⟨ho, -⟩, -⟩ := MfgServer.issued (c := c) L hpair hp hsz' hsv hser hsz
  have hm : R.E.keyMatches ov.header.mfgKey k' = true := by
    unfold MfgServer.sessionVoucher at hsv
    split at hsv
    · cases hsv
    · obtain ⟨_, -, hsv⟩ := Res.bind_eq_ok.1 hsv
      obtain ⟨header, -, hsv⟩ := Res.bind_eq_ok.1 hsv
      split at hsv
      · cases hsv
      · obtain ⟨w, hw, hsv⟩ := Res.bind_eq_ok.1 hsv
        cases hsv
        exact issue_matches e2 hw
  rw [hne _ _ f1 ho] at hm
  cases hm

end

end Verif.Startup
