import Verif.Props.AioRun
import Verif.Props.MfgClient
import Verif.Props.MfgCrash
import Verif.Props.MfgRun
import Verif.Props.Credential
import Verif.Props.DeviceEnd
/-!
C85: devices that are manufactured and run by the all-in-one tool.
-/
namespace Verif.AioRun
open Verif Verif.Aio
variable {showIp : Bytes → String}

/-! ### Commands -/

theorem manufactures (dir bin : String) (a : Args) (loc info : String) : Manufactures dir bin a loc info (manufactureCommand dir bin a loc info) where
  program := by
    show bin ++ "/" ++ _ = _
    rw [String.append_assoc]
    rfl
  args := rfl
  url := by simp [manufactureCommand]
  roots := by
    have : path dir "keys" "diun_cert.pem" = dir ++ "/keys/diun_cert.pem" := by
      simp only [path, String.append_assoc]
      rfl
    rw [← this]
    simp [manufactureCommand]
  info := by simp [manufactureCommand]
  place := by simp [manufactureCommand]

theorem dumps (bin loc : String) : Dumps bin loc (dumpCommand bin loc) where
  program := by
    show bin ++ "/" ++ _ = _
    rw [String.append_assoc]
    rfl
  args := rfl

theorem onboards (bin loc : String) (kdf : Bool) : Onboards bin loc kdf (clientCommand bin loc kdf) where
  program := by
    show bin ++ "/" ++ _ = _
    rw [String.append_assoc]
    rfl
  args := rfl
  credential := by simp [clientCommand]
  marker := by simp [clientCommand]
  kdf := by cases kdf <;> simp [clientCommand]
  policy := by intro v; cases kdf <;> simp [clientCommand]

theorem run_ok {c : Command} {t : Trace sig} (h : Prog.Ends (runOk c) t (.ok ())) : t = [⟨.run c, some (.code 0)⟩] := by
  obtain ⟨s, t1, rfl, g1⟩ := Proc.ends_ask_bind h
  obtain ⟨s', hs, g2⟩ := Proc.ends_some_bind g1
  obtain ⟨rfl, h1⟩ := Proc.ends_check g2
  have hs : s = some s' := hs
  subst hs
  cases s' with
  | code n =>
    cases n with
    | zero => rfl
    | succ n => cases h1
  | signal n => cases h1

theorem device_ok {dir bin : String} {a : Args} {loc : String} {dc : DeviceCommand} {t : Trace sig} (h : Prog.Ends (device dir bin a loc dc) t (.ok ())) :
    ∃ cs, t = cs.map (fun c => (⟨.run c, some (.code 0)⟩ : sig.Deed)) ∧ Commands dir bin a loc dc cs := by
  cases dc with
  | manufacture info =>
    obtain ⟨_, t1, t2, rfl, h1, h2⟩ := Proc.ends_bind h
    have h1 := run_ok h1
    have h2 := run_ok h2
    subst h1 h2
    exact ⟨[_, _], rfl, _, _, rfl, manufactures _ _ _ _ _, dumps _ _⟩
  | analyze =>
    have h := run_ok h
    subst h
    exact ⟨[_], rfl, _, rfl, dumps _ _⟩
  | run kdf =>
    have h := run_ok h
    subst h
    exact ⟨[_], rfl, _, rfl, onboards _ _ _⟩

/-- **C85**, commands: if the all-in-one tool reports success for a device, all programs and the configuration were found, and the right
programs have been run with the right arguments and variables, all with success. -/
theorem C85_commands {n : Nat} {args : AioArgs} {loc : String} {dc : DeviceCommand} {t : Trace sig} (hc : args.command = some (.device loc dc))
    (h : Prog.Ends (main showIp n args) t (.ok ())) :
    ∃ t1 bin dir a cs, Prepared args t1 bin dir a ∧ t = t1 ++ cs.map (fun c => (⟨.run c, some (.code 0)⟩ : sig.Deed)) ∧
      Commands dir bin a loc dc cs := by
  rcases main_steps h with h' | ⟨t1, t2, bin, dir, a, p, rfl, h1, h2, h3, h4⟩
  · exfalso
    obtain ⟨bin, t1, t2, rfl, h1, g1⟩ := Proc.ends_bind h
    obtain ⟨d, t3, t4, rfl, h2, g2⟩ := Proc.ends_bind g1
    obtain ⟨d', t5, t6, rfl, h3, g3⟩ := Proc.ends_bind g2
    rw [hc] at g3
    obtain ⟨q, t7, t8, rfl, h4, g4⟩ := Proc.ends_bind g3
    obtain ⟨cs, rfl, h5⟩ := device_ok g4
    have h6 : ∃ c, c ∈ cs := by
      cases dc with
      | manufacture info =>
        obtain ⟨c, d, rfl, -⟩ := h5
        exact ⟨c, by simp⟩
      | analyze =>
        obtain ⟨c, rfl, -⟩ := h5
        exact ⟨c, by simp⟩
      | run kdf =>
        obtain ⟨c, rfl, -⟩ := h5
        exact ⟨c, by simp⟩
    obtain ⟨c, hcs⟩ := h6
    refine not_quiet (o := .run c) nofun nofun (h' ⟨.run c, some (.code 0)⟩ ?_)
    simp only [List.mem_append]
    exact .inr (.inr (.inr (.inr (List.mem_map.2 ⟨c, hcs, rfl⟩))))
  · unfold rest at h3
    rw [hc] at h3
    cases h3
    obtain ⟨cs, rfl, h5⟩ := device_ok h4
    exact ⟨t1, bin, dir, a, cs, h2, rfl, h5⟩

/-- **C85**, commands, conversely: only such programs are run, whether they succeed or not. -/
theorem C85_only {n : Nat} {args : AioArgs} {loc : String} {dc : DeviceCommand} {t v : Trace sig} {c : Command} {s : Option Status}
    (hc : args.command = some (.device loc dc)) (h : Prog.Does (main showIp n args) (t ++ (⟨.run c, s⟩ : sig.Deed) :: v)) :
    ∃ bin dir a cs, Prepared args t bin dir a ∧ Commands dir bin a loc dc cs ∧ c ∈ cs := by
  obtain ⟨q, h⟩ := h
  have hq : ¬ Quiet (.run c) := not_quiet nofun nofun
  have key : ∀ {bin dir a u}, Prog.Does (device dir bin a loc dc) (u ++ (⟨.run c, s⟩ : sig.Deed) :: v) → ∃ cs, Commands dir bin a loc dc cs ∧ c ∈ cs := by
    intro bin dir a u h
    have run : ∀ (cs : List Command) c, c ∈ cs → Prog.Only (S := sig) (fun o => ∃ c ∈ cs, o = .run c) (runOk c) := fun cs c hcs =>
      Proc.only_bind (Proc.only_ask ⟨c, hcs, rfl⟩) fun _ => Proc.only_bind Proc.only_some? fun _ => Proc.only_check
    have fin : ∀ {cs : List Command}, Prog.Only (S := sig) (fun o => ∃ c ∈ cs, o = .run c) (device dir bin a loc dc) → c ∈ cs := fun ho => by
      obtain ⟨c', h1, h2⟩ := ho _ h ⟨.run c, s⟩ (by simp)
      cases h2
      exact h1
    cases dc with
    | manufacture info =>
      exact ⟨_, ⟨_, _, rfl, manufactures _ _ _ _ _, dumps _ _⟩, fin (Proc.only_bind (run _ _ (by simp)) fun _ => run _ _ (by simp))⟩
    | analyze => exact ⟨_, ⟨_, rfl, dumps _ _⟩, fin (run _ _ (by simp))⟩
    | run kdf => exact ⟨_, ⟨_, rfl, onboards _ _ _⟩, fin (run _ _ (by simp))⟩
  rcases main_steps h with h' | ⟨t1, t2, bin, dir, a, p, he, h1, h2, h3, h4⟩
  · exact absurd (h' ⟨.run c, s⟩ (by simp)) hq
  unfold rest at h3
  rw [hc] at h3
  cases h3
  rcases List.append_eq_append_iff.1 he with ⟨x, rfl, hx⟩ | ⟨x, rfl, rfl⟩
  · cases x with
    | nil =>
      rw [List.nil_append] at hx
      subst hx
      obtain ⟨cs, h5⟩ := key (u := []) ⟨q, h4⟩
      exact ⟨bin, dir, a, cs, by simpa using h2, h5⟩
    | cons y x =>
      rw [List.cons_append, List.cons.injEq] at hx
      obtain ⟨rfl, -⟩ := hx
      exact absurd (h1 ⟨.run c, s⟩ (by simp)) hq
  · obtain ⟨cs, h5⟩ := key ⟨q, h4⟩
    exact ⟨bin, dir, a, cs, h2.mono, h5⟩

/-! ### Manufacturing -/

section
open MfgClient
variable {R : MfgClient.ClientEnv} {c : Bool} {A : Http.Aead} {w : Credential.Surroundings} {dir bin loc info : String} {a : Aio.Args} {cmd : Command}

/-- **C85**, the server: if the manufacturing client, started in this way, sends its public key, then it has got a reply which
authenticates the server for a certificate that is anchored in the file `keys/diun_cert.pem` of the set-up. (For the case that plain DI is
wanted by the environment see `C85_plain_violated`.) -/
theorem C85_authenticated_partial (hm : Manufactures dir bin a loc info cmd) (hw : Starts cmd w) (hp : w.var "USE_PLAIN_DI".toList ≠ some (some "true".toList))
    {t : Trace (MfgClient.sig R)} {s : Http.Sent} {r : Option Http.NetReply} (hs : s.type = .diunProvideKey)
    (h : Proc.Reaches (MfgClient.main c A w .fromEnv) t ⟨.net s, r⟩) :
    ∃ b l n other rep body, (⟨.app (.fs (.read (dir ++ "/keys/diun_cert.pem").toList)), some b⟩ : (MfgClient.sig R).Deed) ∈ t ∧ R.pemCerts b = some l ∧
      (⟨.net ⟨.diunConnect, none, body⟩, some rep⟩ : (MfgClient.sig R).Deed) ∈ t ∧ Authenticated c (.certs l) n other rep.body := by
  obtain ⟨g, how, n, key, random, rep, other, flag, k, iv, plain, h1, h2, h3, h4, h5, h6, -⟩ := C64_authenticated hs h
  have h1 := (show given w .fromEnv = _ from if_neg hp).symm.trans h1
  rw [hw _ _ hm.roots] at h1
  cases h1
  cases h2 with
  | certs p hash insecure b l g1 g2 => exact ⟨b, l, n, other, rep, _, g1, g2, h5, h6⟩

/-- **C85**, files: at every point of a run of the manufacturing client, only the file `loc` may have changed, and then it holds a part of
an active credential, and all of it if the server was told to keep the voucher. -/
theorem C85_files (hm : Manufactures dir bin a loc info cmd) (hw : Starts cmd w) {t : Trace (MfgClient.sig R)}
    (h : Prog.Does (MfgClient.main c A w .fromEnv) t) {s s' : Fs.Files} (hr : Fs.Run s (fileDeeds t) s') :
    (∀ q, q ≠ loc.toList → s' q = s q) ∧
      (s' = s ∨ ∃ cr b, cr.active = true ∧ s' loc.toList = some b ∧ b <+: R.codec.enc cr ∧
        ((∃ q r, (⟨.net q, r⟩ : (MfgClient.sig R).Deed) ∈ t ∧ q.type = .diSetHmac) → b = R.codec.enc cr)) := by
  rcases C72_crash _ _ _ t h s s' hr with ⟨rfl, -⟩ | ⟨p, cr, b, h1, h2, h3, rfl, h4⟩
  · exact ⟨fun _ _ => rfl, .inl rfl⟩
  · unfold credPath at h1
    rw [hw _ _ hm.place] at h1
    cases h1
    refine ⟨fun q hq => ?_, .inr ⟨cr, b, h2, ?_, h3, h4⟩⟩
    · simp [Fs.Files.set, hq]
    · simp [Fs.Files.set]

/-- **C85**, information: what a device tells the server about itself is what was asked for. -/
theorem C85_info (hm : Manufactures dir bin a loc info cmd) (hw : Starts cmd w) {t : Trace (MfgClient.sig R)}
    (h : Prog.Does (MfgClient.main c A w .fromEnv) t) {s : Http.Sent} {r : Option Http.NetReply} (hs : s.type = .diAppStart)
    (ht : (⟨.net s, r⟩ : (MfgClient.sig R).Deed) ∈ t) : ∃ ks iv, Http.encryptWith A ks iv (R.encAppStart info) = some s.body := by
  let P : (MfgClient.sig R).Eff → Prop := fun e => ∀ s, e = .net s → s.type = .diAppStart →
    ∃ ks iv, Http.encryptWith A ks iv (R.encAppStart info) = some s.body
  have q : MfgClient.Quiet (R := R) P := ⟨nofun, fun _ _ => nofun⟩
  have other : ∀ {m : MsgType}, m ≠ .diAppStart → ∀ s : Http.Sent, s.type = m → P (.net s) := fun hm s hs s' he ht => by
    cases he
    exact absurd (hs.symm.trans ht) hm
  have hinfo : ∀ ty i, mfgInfo (R := R) w ty i = pure info := fun ty i => by
    unfold mfgInfo
    rw [hw _ _ hm.info]
    show Pure.pure (String.ofList info.toList) = _
    rw [String.ofList_toList]
  have hdi : ∀ cl k ty i, Prog.Only (S := MfgClient.sig R) P (di c A w cl k ty i) := fun cl k ty i => by
    unfold di
    rw [hinfo]
    have hsend : Prog.Only (S := MfgClient.sig R) P
        (Http.sendP .http A (decHeader (R := R) c) cl .diAppStart .diSetCredentials (R.encAppStart info) none : Proc (MfgClient.sig R) CliErr _) := by
      intro t h d hd s he _
      obtain ⟨u, v, rfl⟩ := List.append_of_mem hd
      obtain ⟨e, b⟩ := d
      have he : e = .net s := he
      subst he
      obtain ⟨iv, -, -, h1, -⟩ := Http.reaches_send ⟨v, h⟩
      exact ⟨_, iv, h1⟩
    exact (Proc.only_bind hsend fun _ =>
      Proc.only_bind Proc.only_lift fun _ => Proc.only_bind (only_hmacOf q _ _) fun _ => Proc.only_bind Proc.only_lift fun _ =>
      Proc.only_bind (only_save (fun _ => nofun) _ _ _ _ _ _) fun _ => Proc.only_bind (Http.only_send q.iv (other (m := .diSetHmac) (by decide))) fun _ => Proc.only_pure :)
  have hdiun : ∀ how cl, Prog.Only (S := MfgClient.sig R) P (diun c A how cl) := fun how cl =>
    Proc.only_bind (only_diunKeys q c A (other (by decide)) _ _) fun _ =>
      Proc.only_bind (Http.only_send q.iv (other (by decide))) fun _ =>
      Proc.only_bind (only_getNewKey q _ _) fun _ => Proc.only_bind Proc.only_some? fun _ =>
      Proc.only_bind (Http.only_send q.iv (other (by decide))) fun _ => Proc.only_pure
  have henv : Prog.Only (S := MfgClient.sig R) P (envDi c A w) :=
    Proc.only_bind Proc.only_some? fun _ => Proc.only_ite
      (Proc.only_bind Proc.only_some? fun _ => Proc.only_bind (only_ifaceFor q _ _) fun _ => Proc.only_bind Proc.only_some? fun _ =>
        Proc.only_bind (only_storedKey q _ _) fun _ => hdi _ _ _ _)
      (Proc.only_bind (only_verification q _ _ _) fun _ => Proc.only_bind (hdiun _ _) fun _ => Proc.only_bind (only_ifaceFor q _ _) fun _ => hdi _ _ _ _)
  have hmain : Prog.Only (S := MfgClient.sig R) P (MfgClient.main c A w .fromEnv) := by
    unfold MfgClient.main
    split
    · exact henv
    · exact Proc.only_fail
    · exact Prog.only_ret
    · exact Proc.only_bind (only_readP q _) fun _ => Proc.only_bind Proc.only_some? fun _ => Proc.only_ite Proc.only_pure henv
  exact hmain t h _ ht s rfl hs

/-- **C85**, success of manufacturing: if no credential was found before and the manufacturing client succeeds, `loc` holds an active
credential, and no other file has changed. (For a credential elsewhere see `C85_elsewhere_violated`.) -/
theorem C85_manufactured_partial (hm : Manufactures dir bin a loc info cmd) (hw : Starts cmd w) (hf : Credential.find w = none)
    {t : Trace (MfgClient.sig R)} (h : Prog.Ends (MfgClient.main c A w .fromEnv) t (.ok ())) {s s' : Fs.Files} (hr : Fs.Run s (fileDeeds t) s') :
    ∃ cr, cr.active = true ∧ s' = s.set loc.toList (some (R.codec.enc cr)) := by
  have hp : credPath w = .ok loc.toList := by
    unfold credPath
    rw [hw _ _ hm.place]
  have hdi : ∀ {cl k ty i} {u : Trace (MfgClient.sig R)} {s s' : Fs.Files}, Prog.Ends (di c A w cl k ty i) u (.ok ()) → Fs.Run s (fileDeeds u) s' →
      ∃ cr, cr.active = true ∧ s' = s.set loc.toList (some (R.codec.enc cr)) := by
    intro cl k ty i u s s' h hr
    obtain ⟨info, hd, hb, hmac, kh, ks, p, hrun⟩ := ends_di h
    have := hrun.path.symm.trans hp
    cases this
    exact ⟨_, rfl, di_files hrun hr⟩
  have hnet : ¬ Idles t := by
    intro hi
    unfold MfgClient.main at h
    rw [hf] at h
    have hid : ∀ {cl k ty i} {u : Trace (MfgClient.sig R)}, Prog.Ends (di c A w cl k ty i) u (.ok ()) → ¬ ∀ d ∈ u, Idle d.1 := by
      intro cl k ty i u h hu
      obtain ⟨info, hd, hb, hmac, kh, ks, p, ⟨t0, iv, body, r, cl1, t1, iv2, body2, r2, cl2, rfl, -⟩, -⟩ := ends_di h
      exact (hu ⟨.net ⟨.diAppStart, cl.token, body⟩, some r⟩ (by simp)).1 _ rfl
    obtain ⟨_, _, g0⟩ := Proc.ends_some_bind h
    by_cases hp : envVar w "USE_PLAIN_DI" = some "true".toList
    · rw [if_pos hp] at g0
      obtain ⟨ty, _, g1⟩ := Proc.ends_some_bind g0
      obtain ⟨i', t0, u0, rfl, h0, g2⟩ := Proc.ends_bind g1
      obtain ⟨s, _, g3⟩ := Proc.ends_some_bind g2
      obtain ⟨k, t2, u2, rfl, h2, g4⟩ := Proc.ends_bind g3
      exact hid g4 fun d hd => hi d (by simp [hd])
    · rw [if_neg hp] at g0
      obtain ⟨how, t0, t1, rfl, h0, g1⟩ := Proc.ends_bind g0
      obtain ⟨⟨cl, k, ty⟩, t2, u2, rfl, h2, g2⟩ := Proc.ends_bind g1
      obtain ⟨i', t3, u3, rfl, h3, g3⟩ := Proc.ends_bind g2
      exact hid g3 fun d hd => hi d (by simp [hd])
  rcases ends_main h with hi | ⟨t0, t1, rfl, q0, hcase⟩
  · exact absurd hi hnet
  rw [fileDeeds_append] at hr
  obtain ⟨s1, hf1, hf2⟩ := Fs.run_append hr
  have e1 := q0.files hf1
  subst e1
  rcases hcase with ⟨k, ty, i, hgiven, h1⟩ | ⟨how, cl, k, ty, i, u0, u1, u2, hgiven, rfl, q1, h1, h2⟩
  · exact hdi h1 hf2
  · rw [fileDeeds_append, fileDeeds_append] at hf2
    obtain ⟨s2, hf3, hf4⟩ := Fs.run_append hf2
    have e2 := diun_idle h1 hf3
    subst e2
    obtain ⟨s3, hf5, hf6⟩ := Fs.run_append hf4
    have e3 := q1.files hf5
    subst e3
    exact hdi h2 hf6

/-- **C85 is violated** (server): if plain DI is wanted by the environment of the all-in-one tool, the server is not authenticated: it is
never even asked for a certificate. -/
theorem C85_plain_violated (hp : w.var "USE_PLAIN_DI".toList = some (some "true".toList)) {t : Trace (MfgClient.sig R)}
    (h : Prog.Does (MfgClient.main c A w .fromEnv) t) {s : Http.Sent} {r : Option Http.NetReply} (ht : (⟨.net s, r⟩ : (MfgClient.sig R).Deed) ∈ t) :
    s.type = .diAppStart ∨ s.type = .diSetHmac := by
  let P : (MfgClient.sig R).Eff → Prop := fun e => ∀ s, e = .net s → s.type = .diAppStart ∨ s.type = .diSetHmac
  have q : MfgClient.Quiet (R := R) P := ⟨nofun, fun _ _ => nofun⟩
  have henv : Prog.Only (S := MfgClient.sig R) P (envDi c A w) := by
    refine Proc.only_bind Proc.only_some? fun _ => ?_
    rw [if_pos (show envVar w "USE_PLAIN_DI" = _ by unfold envVar; rw [hp]; rfl)]
    exact Proc.only_bind Proc.only_some? fun _ => only_plainDi q c A (fun _ => nofun) (fun s hs s' he => by cases he; exact .inl hs)
      (fun s hs s' he => by cases he; exact .inr hs) _ _ _ _
  have hmain : Prog.Only (S := MfgClient.sig R) P (MfgClient.main c A w .fromEnv) := by
    unfold MfgClient.main
    split
    · exact henv
    · exact Proc.only_fail
    · exact Prog.only_ret
    · exact Proc.only_bind (only_readP q _) fun _ => Proc.only_bind Proc.only_some? fun _ => Proc.only_ite Proc.only_pure henv
  exact hmain t h _ ht s rfl

/-- **C85 is violated** (success of manufacturing): with an active credential in `/etc` the manufacturing client does nothing and
succeeds. What is printed then is a credential from before. -/
theorem C85_elsewhere_violated (hf : Credential.find w = some (.ok ⟨Credential.etcPath, .deactivate⟩)) {b : Bytes} {cr : Credential.Cred}
    (hd : R.codec.dec b = some cr) (ha : cr.active = true) :
    Prog.Ends (MfgClient.main c A w .fromEnv) ([⟨.app (.fs (.read Credential.etcPath)), some b⟩] : Trace (MfgClient.sig R)) (.ok ()) := by
  unfold MfgClient.main
  rw [hf]
  refine .cons ?_
  show Prog.Steps (Proc.some? (.data .serde) (R.codec.dec b) >>= fun cr => if cr.active then pure () else start c A w .fromEnv : Proc (MfgClient.sig R) CliErr Unit) [] _
  rw [hd]
  show Prog.Steps (if cr.active then pure () else start c A w .fromEnv : Proc (MfgClient.sig R) CliErr Unit) [] _
  rw [if_pos ha]
  exact .nil _

end

/-! ### Onboarding -/

section
open Device
variable {R : DevEnv} {c : Bool} {A : Http.Aead} {w : Credential.Surroundings} {host : SiClient.Host} {bin loc : String} {kdf : Bool} {cmd : Command}

/-- **C85**, onboarding: if there is a credential at `loc` and none presented by the firmware, the device has not been onboarded before,
and nothing else is wanted by the environment, then the client that is started onboards with the credential at `loc`, which is kept: when
it succeeds, the credential was not active or the protocol has come to its end with an owner that has been verified. -/
theorem C85_onboarded_partial (ho : Onboards bin loc kdf cmd) (hw : Starts cmd w) (C : Voucher.CodecLaws R.E) (S : Sized R)
    (hf : w.exists? Credential.firmwarePath = false) (hl : w.exists? loc.toList = true) (hm : w.exists? (loc ++ ".marker").toList = false)
    (hd : w.var "DEVICE_CREDENTIAL_DELETE".toList = none) (ha : w.var "DEVICE_CREDENTIAL_DEACTIVATE".toList = none)
    {n : Nat} {t : Trace (Device.sig R)} (he : Prog.Ends (Device.main (R := R) c A w host n) t (.ok ())) :
    ∃ cr, ReadFrom ⟨loc.toList, .keep⟩ t cr ∧ (cr.active = false ∨ ∃ to1d n5 iv reply rest t' b,
      t = t' ++ (if b then [⟨.app .reboot, some true⟩] else []) ∧ Attempt c w ⟨loc.toList, .keep⟩ cr to1d t' (hello cr n5 iv reply ++ rest) ∧
      Onboarded c A w host ⟨loc.toList, .keep⟩ cr to1d n5 reply rest b) := by
  have h1 : markerPath w = (loc ++ ".marker").toList := by
    unfold markerPath
    rw [hw _ _ ho.marker]
    rfl
  obtain ⟨m, h2, h3, h4⟩ := (Credential.C61_precedence w).2.2.1 loc.toList hf (hw _ _ ho.credential) hl
  have h5 : m = .keep := by
    cases m with
    | keep => rfl
    | delete => exact absurd hd (h3.1 rfl)
    | deactivate => exact absurd ha (h4.1 rfl).2
  subst h5
  exact C48_ends_partial C S n t he (h1 ▸ hm) h2

/-- **C85 is violated** (onboarding): without any credential, the client does nothing and succeeds, and "onboarding completed" is
reported. -/
theorem C85_nothing_violated (ho : Onboards bin loc kdf cmd) (hw : Starts cmd w) (hn : ∀ p, w.exists? p = false) (n : Nat) :
    Prog.Ends (Device.main (R := R) c A w host n) [] (.ok ()) := by
  unfold Device.main
  rw [hn]
  have : Credential.find w = none := by
    rw [(Credential.C61_precedence w).2.2.2 (hn _) (.inr ⟨_, hw _ _ ho.credential, hn _⟩), hn]
    rfl
  rw [this]
  exact .nil _

/-- **C85 is violated** (onboarding): if the marker is there, since a device had been onboarded with a credential at the same place, the
client does nothing with the credential and succeeds, although this may be a new one. -/
theorem C85_again_violated (ho : Onboards bin loc kdf cmd) (hw : Starts cmd w) (hm : w.exists? (loc ++ ".marker").toList = true) (n : Nat) :
    Prog.Ends (Device.main (R := R) c A w host n) [⟨.app .reencrypt, true⟩] (.ok ()) := by
  unfold Device.main
  have h1 : markerPath w = (loc ++ ".marker").toList := by
    unfold markerPath
    rw [hw _ _ ho.marker]
    rfl
  rw [h1, hm]
  exact .cons (.nil _)

/-- **C85 is violated** (onboarding): if there is no credential at `loc`, another one is used, that of the machine on which the
all-in-one tool runs. -/
theorem C85_other_violated (ho : Onboards bin loc kdf cmd) (hw : Starts cmd w) (hf : w.exists? Credential.firmwarePath = false)
    (hl : w.exists? loc.toList = false) (he : w.exists? Credential.etcPath = true) :
    Credential.find w = some (.ok ⟨Credential.etcPath, .deactivate⟩) := by
  rw [(Credential.C61_precedence w).2.2.2 hf (.inr ⟨_, hw _ _ ho.credential, hl⟩), he]
  rfl

/-- **C85 is violated** (onboarding): a credential presented by the firmware is used instead of that at `loc`. -/
theorem C85_firmware_violated (hf : w.exists? Credential.firmwarePath = true) :
    Credential.find w = some (.ok ⟨Credential.firmwarePath, .keep⟩) := (Credential.C61_precedence w).1 hf

end
/-! ### Examples -/

/-- The variables of a command. -/
def varOf (c : Command) (v : List Char) : Option (Option (List Char)) := (c.env.find? fun x => x.1.toList == v).map fun x => some x.2.toList

/-- Surroundings in which a command runs, with nothing else in the environment. -/
def around (c : Command) (exist : List String) : Credential.Surroundings where
  exists? := fun p => exist.any fun q => q.toList == p
  var := varOf c

theorem around_starts {c : Command} (h : ∀ x ∈ c.env, varOf c x.1.toList = some (some x.2.toList)) (exist : List String) :
    Starts c (around c exist) := fun v s hs => h (v, s) hs

theorem around_manufacture (exist : List String) : Starts (manufactureCommand "/d" "/b" Args.default "/l" "dev") (around (manufactureCommand "/d" "/b" Args.default "/l" "dev") exist) :=
  around_starts (by decide +kernel) exist

theorem around_client (exist : List String) : Starts (clientCommand "/b" "/l" false) (around (clientCommand "/b" "/l" false) exist) :=
  around_starts (by decide +kernel) exist

/-- A device that can be manufactured, as in `C85_authenticated_partial`, `C85_files`, `C85_info` and `C85_manufactured_partial`. -/
example : (around (manufactureCommand "/d" "/b" Args.default "/l" "dev") []).var "USE_PLAIN_DI".toList ≠ some (some "true".toList) ∧
    Credential.find (around (manufactureCommand "/d" "/b" Args.default "/l" "dev") []) = none ∧
    MfgClient.credPath (around (manufactureCommand "/d" "/b" Args.default "/l" "dev") []) = .ok "/l".toList := by decide +kernel

/-- One for `C85_elsewhere_violated`. -/
example : Credential.find (around (manufactureCommand "/d" "/b" Args.default "/l" "dev") ["/etc/device-credentials"]) =
    some (.ok ⟨Credential.etcPath, .deactivate⟩) := by decide +kernel

/-- A device that can be onboarded, as in `C85_onboarded_partial`. -/
example : (around (clientCommand "/b" "/l" false) ["/l"]).exists? Credential.firmwarePath = false ∧
    (around (clientCommand "/b" "/l" false) ["/l"]).exists? "/l".toList = true ∧
    (around (clientCommand "/b" "/l" false) ["/l"]).exists? ("/l" ++ ".marker").toList = false ∧
    (around (clientCommand "/b" "/l" false) ["/l"]).var "DEVICE_CREDENTIAL_DELETE".toList = none ∧
    (around (clientCommand "/b" "/l" false) ["/l"]).var "DEVICE_CREDENTIAL_DEACTIVATE".toList = none ∧
    Credential.find (around (clientCommand "/b" "/l" false) ["/l"]) = some (.ok ⟨"/l".toList, .keep⟩) := by decide +kernel

/-- Ones for the violations. -/
example {R : Device.DevEnv} {c : Bool} {A : Http.Aead} {host : SiClient.Host} (n : Nat) :
    Prog.Ends (Device.main (R := R) c A (around (clientCommand "/b" "/l" false) []) host n) [] (.ok ()) :=
  C85_nothing_violated (onboards _ _ _) (around_client []) (fun _ => rfl) n

example {R : Device.DevEnv} {c : Bool} {A : Http.Aead} {host : SiClient.Host} (n : Nat) :
    Prog.Ends (Device.main (R := R) c A (around (clientCommand "/b" "/l" false) ["/l", "/l.marker"]) host n) [⟨.app .reencrypt, true⟩] (.ok ()) :=
  C85_again_violated (onboards _ _ _) (around_client _) (by decide +kernel) n

example : Credential.find (around (clientCommand "/b" "/l" false) ["/etc/device-credentials"]) = some (.ok ⟨Credential.etcPath, .deactivate⟩) :=
  C85_other_violated (onboards _ _ _) (around_client _) (by decide +kernel) (by decide +kernel) (by decide +kernel)

/-- A run of the tool for a device: manufacturing succeeds, and the credential is printed. -/
def dutiful (a : Args) : (o : Op) → o.Ans
  | .run _ => some (.code 0)
  | o => smooth a .interrupt o

example : Prog.exec (S := sig) (fun (_ : Unit) o => ((), dutiful Args.default o)) () (main (fun _ => "") 6 ⟨some "/d", some "/b", some (.device "/l" (.manufacture "dev"))⟩) =
    ((), .ok ()) := by decide +kernel

end Verif.AioRun
