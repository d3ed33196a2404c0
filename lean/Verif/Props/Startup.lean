import Verif.Model.Startup
import Verif.Props.Settings
import Verif.Props.RvServer
import Verif.Props.To0Report
/-!
C90: trust that is configured is enforced, or the server does not start.
-/
namespace Verif.Startup
open Verif Verif.Settings

/-! ### Specification -/

/-- The settings have a value for a name: there is an entry, and it is not null. -/
def Has (S : Scalars) (v : Val) (name : String) : Prop :=
  ∃ x, field v.fields name = some x ∧ ∀ s, x = .leaf s → S.isNull s = false

/-- The settings name, as an absolute path, a file with these certificates. -/
def Holds {R : OwnerServer.OwnerEnv} (S : Scalars) (W : World R) (v : Val) (name : String) (l : List R.C.Cert) : Prop :=
  ∃ s p b, v.at [name] = some s ∧ S.text s = some p ∧ p.toList.head? = some '/' ∧ W.file p = some b ∧ W.stackFromPem b = some l

/-! ### Proofs -/

theorem at_of_field {v : Val} {name s : String} (h : field v.fields name = some (.leaf s)) : v.at [name] = some s := by
  rw [at_fields, h]
  rfl

theorem pathOf_ok {S : Scalars} {x : Val} {p : String} (h : pathOf S x = .ok p) :
    ∃ s, x = .leaf s ∧ S.text s = some p ∧ p.toList.head? = some '/' := by
  cases x with
  | table l => cases h
  | leaf s =>
    simp only [pathOf] at h
    cases hq : S.text s with
    | none => rw [hq] at h; cases h
    | some q =>
      rw [hq] at h
      simp only [absolutePath] at h
      split at h
      · cases h
      · split at h
        · rename_i hp
          cases h
          exact ⟨s, rfl, hq, hp⟩
        · cases h

theorem optional_has {α : Type} {S : Scalars} {f : Val → Res Fail α} {v : Val} {name : String} {o : Option α}
    (h : optional S f v name = .ok o) (hh : Has S v name) : ∃ x a, field v.fields name = some x ∧ f x = .ok a ∧ o = some a := by
  obtain ⟨x, hx, hn⟩ := hh
  unfold optional at h
  rw [hx] at h
  cases x with
  | leaf s =>
    simp only [hn s rfl, Bool.false_eq_true, if_false] at h
    split at h
    · rename_i a ha
      cases h
      exact ⟨_, a, hx, ha, rfl⟩
    · cases h
    · cases h
  | table l =>
    simp only at h
    split at h
    · rename_i a ha
      cases h
      exact ⟨_, a, hx, ha, rfl⟩
    · cases h
    · cases h

theorem optional_hasnt {α : Type} {S : Scalars} {f : Val → Res Fail α} {v : Val} {name : String} (hh : ¬ Has S v name) :
    optional S f v name = .ok none := by
  unfold optional
  cases hx : field v.fields name with
  | none => rfl
  | some x =>
    cases x with
    | leaf s =>
      have : S.isNull s = true := by
        cases hs : S.isNull s with
        | true => rfl
        | false => exact absurd ⟨_, hx, fun s' h => by cases h; exact hs⟩ hh
      simp only [this, if_true]
    | table l => exact absurd ⟨_, hx, fun s' h => by cases h⟩ hh

section
variable {R : OwnerServer.OwnerEnv} {S : Scalars} {W : World R} {v : Val} {rest : Bool}

theorem trusted_ok {p : String} {o : Option (List R.C.Cert)} (h : trusted W (some p) = .ok o) :
    ∃ b l, W.file p = some b ∧ W.stackFromPem b = some l ∧ o = some l := by
  simp only [trusted, load] at h
  cases hf : W.file p with
  | none => rw [hf] at h; cases h
  | some b =>
    cases hb : W.stackFromPem b with
    | none => simp only [hf, hb] at h; cases h
    | some l =>
      simp only [hf, hb] at h
      exact ⟨b, l, rfl, hb, (Res.ok.inj h).symm⟩

/-- A setting with trusted certificates that is there is enforced. -/
theorem holds_of {name : String} {o : Option String} {t : Option (List R.C.Cert)} (h1 : optional S (pathOf S) v name = .ok o)
    (h2 : trusted W o = .ok t) (hh : Has S v name) : ∃ l, Holds S W v name l ∧ t = some l := by
  obtain ⟨x, p, hx, hp, rfl⟩ := optional_has h1 hh
  obtain ⟨s, rfl, hs, ha⟩ := pathOf_ok hp
  obtain ⟨b, l, hb, hl, rfl⟩ := trusted_ok h2
  exact ⟨l, ⟨s, p, b, at_of_field hx, hs, ha, hb, hl⟩, rfl⟩

theorem none_of {name : String} {o : Option String} {t : Option (List R.C.Cert)} (h1 : optional S (pathOf S) v name = .ok o)
    (h2 : trusted W o = .ok t) (hh : ¬ Has S v name) : t = none := by
  rw [optional_hasnt hh] at h1
  cases h1
  exact (Res.ok.inj h2).symm

theorem rendezvous_ok {cfg : RvServer.Config R.toRvEnv} (h : rendezvous S W rest v = .ok cfg) :
    ∃ m d w, optional S (pathOf S) v "trusted_manufacturer_keys_path" = .ok m ∧ optional S (pathOf S) v "trusted_device_keys_path" = .ok d ∧
      optional S (u32Of S) v "max_wait_seconds" = .ok w ∧ trusted W m = .ok cfg.mfgKeys ∧ trusted W d = .ok cfg.deviceKeys ∧
      cfg.maxWait = w.getD 2592000 := by
  obtain ⟨m, h1, h⟩ := Res.bind_eq_ok.1 h
  obtain ⟨d, h2, h⟩ := Res.bind_eq_ok.1 h
  obtain ⟨w, h3, h⟩ := Res.bind_eq_ok.1 h
  cases rest with
  | false => cases h
  | true =>
    obtain ⟨a, h4, h⟩ := Res.bind_eq_ok.1 h
    obtain ⟨b, h5, h⟩ := Res.bind_eq_ok.1 h
    cases h
    exact ⟨m, d, w, h1, h2, h3, h4, h5, rfl⟩

theorem owner_ok {owner2 : R.E.Priv × R.E.Pub} {cfg : OwnerServer.Config R} (h : owner S W rest owner2 v = .ok cfg) :
    ∃ d k p, optional S (pathOf S) v "trusted_device_keys_path" = .ok d ∧ required (pathOf S) v "owner_private_key_path" = .ok k ∧
      required (pathOf S) v "owner_public_key_path" = .ok p ∧ trusted W d = .ok cfg.deviceKeys ∧
      load W W.keyFromDer k = .ok cfg.ownerKey ∧ ownerPub W p = .ok cfg.ownerPub := by
  obtain ⟨d, h1, h⟩ := Res.bind_eq_ok.1 h
  obtain ⟨k, h2, h⟩ := Res.bind_eq_ok.1 h
  obtain ⟨p, h3, h⟩ := Res.bind_eq_ok.1 h
  obtain ⟨e, h4, h⟩ := Res.bind_eq_ok.1 h
  obtain ⟨w, h5, h⟩ := Res.bind_eq_ok.1 h
  obtain ⟨dev, h6, h⟩ := Res.bind_eq_ok.1 h
  obtain ⟨key, h7, h⟩ := Res.bind_eq_ok.1 h
  obtain ⟨pub, h8, h⟩ := Res.bind_eq_ok.1 h
  split at h
  · cases h
  · cases rest with
    | false => cases h
    | true =>
      cases h
      exact ⟨d, k, p, h1, h2, h3, h6, h7, h8⟩

/-- **C90**, rendezvous server: if it starts, then trusted manufacturers and device certificates are exactly those of the files the
settings name; where the settings name none, there is no restriction. In particular, it does not start if a file that is named is
missing or cannot be read, or if the path is empty, relative or no text. -/
theorem C90_rendezvous {cfg : RvServer.Config R.toRvEnv} (h : rendezvous S W rest v = .ok cfg) :
    (Has S v "trusted_manufacturer_keys_path" → ∃ l, Holds S W v "trusted_manufacturer_keys_path" l ∧ cfg.mfgKeys = some l) ∧
    (¬ Has S v "trusted_manufacturer_keys_path" → cfg.mfgKeys = none) ∧
    (Has S v "trusted_device_keys_path" → ∃ l, Holds S W v "trusted_device_keys_path" l ∧ cfg.deviceKeys = some l) ∧
    (¬ Has S v "trusted_device_keys_path" → cfg.deviceKeys = none) := by
  obtain ⟨m, d, w, h1, h2, -, h4, h5, -⟩ := rendezvous_ok h
  exact ⟨holds_of h1 h4, none_of h1 h4, holds_of h2 h5, none_of h2 h5⟩

/-- **C90**, owner server: likewise for trusted device certificates; and its key and its public key are those of the files named. -/
theorem C90_owner {owner2 : R.E.Priv × R.E.Pub} {cfg : OwnerServer.Config R} (h : owner S W rest owner2 v = .ok cfg) :
    (Has S v "trusted_device_keys_path" → ∃ l, Holds S W v "trusted_device_keys_path" l ∧ cfg.deviceKeys = some l) ∧
    (¬ Has S v "trusted_device_keys_path" → cfg.deviceKeys = none) ∧
    (∃ s p b, v.at ["owner_private_key_path"] = some s ∧ S.text s = some p ∧ W.file p = some b ∧ W.keyFromDer b = some cfg.ownerKey) ∧
    (∃ s p b cert, v.at ["owner_public_key_path"] = some s ∧ S.text s = some p ∧ W.file p = some b ∧ W.certFromPem b = some cert ∧
      R.certPub cert = some cfg.ownerPub) := by
  obtain ⟨d, k, p, h1, h2, h3, h4, h5, h6⟩ := owner_ok h
  have req : ∀ {name q}, required (pathOf S) v name = .ok q → ∃ s, v.at [name] = some s ∧ S.text s = some q := by
    intro name q h
    unfold required at h
    cases hx : field v.fields name with
    | none => rw [hx] at h; cases h
    | some x =>
      rw [hx] at h
      obtain ⟨s, rfl, hs, -⟩ := pathOf_ok h
      exact ⟨s, at_of_field hx, hs⟩
  have ld : ∀ {α : Type} {f : Bytes → Option α} {q a}, load W f q = .ok a → ∃ b, W.file q = some b ∧ f b = some a := by
    intro α f q a h
    unfold load at h
    cases hf : W.file q with
    | none => rw [hf] at h; cases h
    | some b =>
      cases hb : f b with
      | none => simp only [hf, hb] at h; cases h
      | some a' =>
        simp only [hf, hb] at h
        exact ⟨b, rfl, by rw [hb, Res.ok.inj h]⟩
  refine ⟨holds_of h1 h4, none_of h1 h4, ?_, ?_⟩
  · obtain ⟨s, e1, e2⟩ := req h2
    obtain ⟨b, e3, e4⟩ := ld h5
    exact ⟨s, k, b, e1, e2, e3, e4⟩
  · obtain ⟨s, e1, e2⟩ := req h3
    obtain ⟨cert, e3, e4⟩ := Res.bind_eq_ok.1 h6
    obtain ⟨b, e5, e6⟩ := ld e3
    refine ⟨s, p, b, cert, e1, e2, e5, e6, ?_⟩
    cases hc : R.certPub cert with
    | none => rw [hc] at e4; cases e4
    | some k =>
      rw [hc] at e4
      exact congrArg some (Res.ok.inj e4)

/-- **C90** from the configuration files on (with **C82**): if the last of the files which says something about the trusted
manufacturers names a path, a rendezvous server that starts trusts just the certificates in that file. -/
theorem C90_files {y : Sys} (hy : ∀ p l, y.file p = .holds l → (Val.table l).Wf) {cfg : RvServer.Config R.toRvEnv}
    (h : fromFiles y "rendezvous-server" (rendezvous S W rest) = .ok cfg) :
    ∃ glob : List String, y.glob (pattern y "rendezvous-server") = some (glob.map some) ∧ ∀ s,
      lastWord ["trusted_manufacturer_keys_path"] (found y (order "rendezvous-server" (y.env (confDirEnv "rendezvous-server"))
        (y.env (confEnv "rendezvous-server")) fun _ => glob)) = .gives s → S.isNull s = false →
      ∃ p b l, S.text s = some p ∧ p.toList.head? = some '/' ∧ W.file p = some b ∧ W.stackFromPem b = some l ∧ cfg.mfgKeys = some l := by
  unfold fromFiles at h
  cases hs : settingsFor y "rendezvous-server" with
  | err e => rw [hs] at h; cases h
  | panic => rw [hs] at h; cases h
  | ok v =>
    rw [hs] at h
    obtain ⟨glob, hg, hl⟩ := C82_last_word hy hs
    refine ⟨glob, hg, fun s hw hn => ?_⟩
    have hat := (hl _ _).2 hw
    have hf : field v.fields "trusted_manufacturer_keys_path" = some (.leaf s) := by
      rw [at_fields] at hat
      cases hx : field v.fields "trusted_manufacturer_keys_path" with
      | none => rw [hx] at hat; cases hat
      | some x =>
        rw [hx] at hat
        cases x with
        | leaf s' => cases hat; rfl
        | table l => simp only [at_table_nil] at hat; cases hat
    obtain ⟨l, ⟨s', p, b, e1, e2, e3, e4, e5⟩, e6⟩ := (C90_rendezvous h).1 ⟨_, hf, fun s' h => by cases h; exact hn⟩
    rw [hat] at e1
    cases e1
    exact ⟨p, b, l, e2, e3, e4, e5, e6⟩

/-- **C90** through to what is done: all that a rendezvous server which was started ever holds was registered with a voucher whose
manufacturer has one of the keys in the file of trusted manufacturers, for a device whose certificate chain leads to a certificate in
the file of trusted device certificates, where the settings name such files. -/
theorem C90_registrations {cfg : RvServer.Config R.toRvEnv} (hs : rendezvous S W rest v = .ok cfg) {c : Bool}
    {B : RvServer.Backend (RvServer.Item R.toRvEnv)} {Id : Type} [DecidableEq Id] {idOf : List Char → Option Id} {aead : Http.Aead}
    {encode : RvServer.Resp → Bytes} {Kept : B.W → Store.Name → RvServer.Item R.toRvEnv → Prop} (K : RvServer.Sound B Kept)
    (h : RvServer.Hist R.toRvEnv c B cfg idOf aead encode) {g : Bytes} (hg : g.length = 16) {item : RvServer.Item R.toRvEnv}
    (hh : RvServer.Held B (RvServer.reached R.toRvEnv c B cfg idOf aead encode h).world (Store.guidText g) item) :
    ∃ h1 rq h2 t, h = h1 ++ .request rq :: h2 ∧ RvServer.Registered R.toRvEnv c B cfg idOf aead encode h1 rq g t item ∧
      (Has S v "trusted_manufacturer_keys_path" → ∃ l, Holds S W v "trusted_manufacturer_keys_path" l ∧
        ∃ cert ∈ l, ∃ k, R.C.publicKey cert = some k ∧ R.sameKey t.voucher.header.mfgKey k = true) ∧
      (Has S v "trusted_device_keys_path" → ∃ l, Holds S W v "trusted_device_keys_path" l ∧
        ∃ ch, t.voucher.chain = some ch ∧ ∃ root ∈ R.certs ch, ∃ cert ∈ l, R.certDigest root = R.certDigest cert) := by
  obtain ⟨h1, rq, h2, t, e, hr⟩ := RvServer.C33_sound_store K h g hg item hh
  refine ⟨h1, rq, h2, t, e, hr, fun hm => ?_, fun hd => ?_⟩
  · obtain ⟨l, e1, e2⟩ := (C90_rendezvous hs).1 hm
    obtain ⟨-, i, n, to0d, to1d, -, -, -, ha⟩ := hr
    exact ⟨l, e1, ha.manufacturer l e2⟩
  · obtain ⟨l, e1, e2⟩ := (C90_rendezvous hs).2.2.1 hd
    obtain ⟨-, i, n, to0d, to1d, -, -, -, ha⟩ := hr
    obtain ⟨ch, leaf, seg, root, rest, d1, d2, -, -, -, d3, -⟩ := ha.device
    obtain ⟨x, hx, d4⟩ := d3 l e2
    exact ⟨l, e1, ch, d1, root, by rw [d2]; simp, x, hx, d4⟩

/-- **C90** through to what is done (with **C89**): an owner server which was started with trusted device certificates contacts a
rendezvous server for a voucher only if the device's certificate chain leads to one of those in the file. -/
theorem C90_reports {owner2 : R.E.Priv × R.E.Pub} {cfg : OwnerServer.Config R} (hs : owner S W rest owner2 v = .ok cfg)
    (hd : Has S v "trusted_device_keys_path") {N : To0.Msgs} {A : Http.Aead} {ov : Voucher.Voucher R.E} {t : Trace To0.sig}
    (h : Prog.Does (To0.report R cfg N A ov) t) (hne : t ≠ []) :
    ∃ l, Holds S W v "trusted_device_keys_path" l ∧ To0.Trusts R (some l) ov := by
  obtain ⟨l, e1, e2⟩ := (C90_owner hs).1 hd
  refine ⟨l, e1, ?_⟩
  rw [← e2]
  exact (To0.C89_trusted h hne).2

/-- **C90**: a file without certificates (an empty one, say) means that nobody is trusted: no registration is authentic. -/
theorem C90_empty_file {cfg : RvServer.Config R.toRvEnv} (hs : rendezvous S W rest v = .ok cfg) {name : String}
    (hn : name = "trusted_manufacturer_keys_path" ∨ name = "trusted_device_keys_path") (hh : Has S v name)
    (hl : ∀ l, Holds S W v name l → l = []) {c : Bool} {n to0d to1d g : Bytes} {t : RvServer.To0d R.toRvEnv} {item : RvServer.Item R.toRvEnv} :
    ¬ RvServer.Authentic R.toRvEnv c cfg n to0d to1d g t item := by
  intro ha
  rcases hn with rfl | rfl
  · obtain ⟨l, e1, e2⟩ := (C90_rendezvous hs).1 hh
    rw [hl l e1] at e2
    obtain ⟨x, hx, -⟩ := ha.manufacturer _ e2
    cases hx
  · obtain ⟨l, e1, e2⟩ := (C90_rendezvous hs).2.2.1 hh
    rw [hl l e1] at e2
    obtain ⟨ch, leaf, seg, root, rest, -, -, -, -, -, d, -⟩ := ha.device
    obtain ⟨x, hx, -⟩ := d _ e2
    cases hx

/-- **C90** does not hold for settings whose name is misspelt: unknown names are ignored, and where no restriction is known, none is
made. Whatever is written under another name, the server starts as if it were not there. -/
theorem C90_misspelt_violated {l : List (String × Val)} {name : String} (x : Val) (h1 : name ≠ "trusted_manufacturer_keys_path")
    (h2 : name ≠ "trusted_device_keys_path") (h3 : name ≠ "max_wait_seconds") :
    rendezvous S W rest (.table (put l name x)) = rendezvous S W rest (.table l) := by
  have e : ∀ {α : Type} {f : Val → Res Fail α} {i : String}, name ≠ i →
      optional S f (.table (put l name x)) i = optional S f (.table l) i := by
    intro α f i h
    unfold optional
    rw [show field (Val.table (put l name x)).fields i = field (Val.table l).fields i from field_put_ne l h x]
  unfold rendezvous
  rw [e h1, e h2, e h3]

end

end Verif.Startup
