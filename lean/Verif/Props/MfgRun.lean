import Verif.Lemmas.MfgRun
/-!
C44: the manufacturing server holds the voucher that belongs to a device credential.
-/
namespace Verif.MfgClient
open Verif Verif.Voucher Verif.Types Verif.MfgServer Verif.Fs
variable {R : ClientEnv}

/-- The ways in which a run of the client can succeed: there is an active credential already, or DI is performed, either with a
key that was there before or with one of DIUN. -/
theorem ends_main {c : Bool} {A : Http.Aead} {w : Credential.Surroundings} {args : Args} {t : Trace (sig R)}
    (h : Prog.Ends (main c A w args) t (.ok ())) :
    Idles t ∨ ∃ t0 t1, t = t0 ++ t1 ∧ Idles t0 ∧
      ((∃ k ty i, given w args = none ∧ Prog.Ends (di c A w .new k ty i) t1 (.ok ())) ∨
       (∃ how cl k ty i u0 u1 u2, (given w args).isSome ∧ t1 = u0 ++ (u1 ++ u2) ∧ Idles u1 ∧
          Prog.Ends (diun c A how .new) u0 (.ok (cl, k, ty)) ∧ Prog.Ends (di c A w cl k ty i) u2 (.ok ()))) := by
  have hq := idle_quiet (R := R)
  have hplain : ∀ ty i x (t : Trace (sig R)), Prog.Ends (plainDi c A w ty i x) t (.ok ()) →
      ∃ t0 t1, t = t0 ++ t1 ∧ Idles t0 ∧ ∃ k i, Prog.Ends (di c A w .new k ty i) t1 (.ok ()) := by
    intro ty i x t h
    obtain ⟨i', t0, u0, rfl, h0, g0⟩ := Proc.ends_bind h
    obtain ⟨s, _, g1⟩ := Proc.ends_some_bind g0
    obtain ⟨k, t2, u2, rfl, h2, g2⟩ := Proc.ends_bind g1
    exact ⟨t0 ++ t2, u2, by simp, (idles_of (only_ifaceFor hq _ _) h0).append (idles_of (only_storedKey hq _ _) h2), k, i', g2⟩
  have hdiun : ∀ how i (t : Trace (sig R)), Prog.Ends (diunDi c A w how i) t (.ok ()) →
      ∃ cl k ty i' u0 u1 u2, t = u0 ++ (u1 ++ u2) ∧ Idles u1 ∧ Prog.Ends (diun c A how .new) u0 (.ok (cl, k, ty)) ∧
        Prog.Ends (di c A w cl k ty i') u2 (.ok ()) := by
    intro how i t h
    obtain ⟨⟨cl, k, ty⟩, t0, u0, rfl, h0, g0⟩ := Proc.ends_bind h
    obtain ⟨i', t1, u1, rfl, h1, g1⟩ := Proc.ends_bind g0
    exact ⟨cl, k, ty, i', t0, t1, u1, rfl, idles_of (only_ifaceFor hq _ _) h1, h0, g1⟩
  have hstart : ∀ t : Trace (sig R), Prog.Ends (start c A w args) t (.ok ()) → ∃ t0 t1, t = t0 ++ t1 ∧ Idles t0 ∧
      ((∃ k ty i, given w args = none ∧ Prog.Ends (di c A w .new k ty i) t1 (.ok ())) ∨
       (∃ how cl k ty i u0 u1 u2, (given w args).isSome ∧ t1 = u0 ++ (u1 ++ u2) ∧ Idles u1 ∧
          Prog.Ends (diun c A how .new) u0 (.ok (cl, k, ty)) ∧ Prog.Ends (di c A w cl k ty i) u2 (.ok ()))) := by
    intro t h
    cases args with
    | plain ty i st =>
      obtain ⟨t0, t1, rfl, h0, k, i', h1⟩ := hplain _ _ _ _ h
      exact ⟨t0, t1, rfl, h0, .inl ⟨k, ty, i', rfl, h1⟩⟩
    | noPlain roots hash b i =>
      obtain ⟨how, t0, t1, rfl, h0, g0⟩ := Proc.ends_bind h
      obtain ⟨cl, k, ty, i', u0, u1, u2, rfl, hi, h1, h2⟩ := hdiun _ _ _ g0
      exact ⟨t0, _, rfl, idles_of (only_verification hq _ _ _) h0, .inr ⟨how, cl, k, ty, i', u0, u1, u2, rfl, rfl, hi, h1, h2⟩⟩
    | fromEnv =>
      obtain ⟨_, _, g0⟩ := Proc.ends_some_bind h
      by_cases hp : envVar w "USE_PLAIN_DI" = some "true".toList
      · rw [if_pos hp] at g0
        obtain ⟨ty, _, g1⟩ := Proc.ends_some_bind g0
        obtain ⟨t0, t1, rfl, h0, k, i', h1⟩ := hplain _ _ _ _ g1
        refine ⟨t0, t1, rfl, h0, .inl ⟨k, ty, i', ?_, h1⟩⟩
        have hp' : w.var "USE_PLAIN_DI".toList = some (some "true".toList) := Option.join_eq_some_iff.mp hp
        exact if_pos hp'
      · rw [if_neg hp] at g0
        obtain ⟨how, t0, t1, rfl, h0, g1⟩ := Proc.ends_bind g0
        obtain ⟨cl, k, ty, i', u0, u1, u2, rfl, hi, h1, h2⟩ := hdiun _ _ _ g1
        refine ⟨t0, _, rfl, idles_of (only_verification hq _ _ _) h0,
          .inr ⟨how, cl, k, ty, i', u0, u1, u2, ?_, rfl, hi, h1, h2⟩⟩
        have hp' : ¬ w.var "USE_PLAIN_DI".toList = some (some "true".toList) := fun h' =>
          hp (by unfold envVar; rw [h']; rfl)
        rw [show given w .fromEnv = _ from if_neg hp']
        rfl
  unfold main at h
  cases hf : Credential.find w with
  | none => rw [hf] at h; exact .inr (hstart t h)
  | some x =>
    rw [hf] at h
    cases x with
    | err e => exact (Proc.ends_fail h).elim
    | panic => cases (Prog.ends_ret h).2
    | ok l =>
      obtain ⟨b, t0, t1, rfl, h0, g0⟩ := Proc.ends_bind h
      have hi := idles_of (only_readP hq _) h0
      obtain ⟨cr, _, g1⟩ := Proc.ends_some_bind g0
      cases ha : cr.active with
      | true =>
        rw [ha] at g1
        obtain ⟨rfl, _⟩ := Proc.ends_pure g1
        exact .inl (hi.append Idles.nil)
      | false =>
        rw [ha] at g1
        obtain ⟨t2, t3, rfl, h2, h3⟩ := hstart _ g1
        exact .inr ⟨t0 ++ t2, t3, by simp, hi.append h2, h3⟩

theorem fileDeeds_append (t u : Trace (sig R)) : fileDeeds (t ++ u) = fileDeeds t ++ fileDeeds u :=
  List.filterMap_append

section
variable {c : Bool} {B : MStore} {cfg : Config R.toMfgEnv}
  {Id : Type} [DecidableEq Id] {idOf : List Char → Option Id} {aead : Http.Aead} {encode : Resp → Bytes}

local notation "Srv" => server R.toMfgEnv c B cfg Id idOf aead encode
local notation "Reached" => reached R.toMfgEnv c B cfg idOf aead encode
local notation "Histories" => Hist R.toMfgEnv c B cfg idOf aead encode

/-- Files after a DI. -/
theorem di_files {A : Http.Aead} {w : Credential.Surroundings} {cl : Http.Client} {k : KeyRef R} {t : Trace (sig R)}
    {info : String} {hd : Header R.E} {hb : Bytes} {hmac kh : Hash} {ks : Credential.KeyStorage} {path : Path}
    (hrun : DiRun c A w cl k t info hd hb hmac kh ks path) {s s' : Files} (hr : Fs.Run s (fileDeeds t) s') :
    s' = s.set path (some (R.codec.enc (newCred R hd kh ks))) := by
  obtain ⟨⟨t0, iv, body, r, cl1, t1, iv2, body2, r2, cl2, rfl, q0, q1, _, _, _⟩, _⟩ := hrun
  rw [fileDeeds_append] at hr
  obtain ⟨s1, r1, hr1⟩ := Fs.run_append hr
  have e1 := q0.files r1
  subst e1
  have hr1 : Fs.Run s1 (fileDeeds (t1 ++ _)) s' := hr1
  rw [fileDeeds_append] at hr1
  obtain ⟨s2, r2', hr2⟩ := Fs.run_append hr1
  have e2 := q1.files r2'
  subst e2
  have hr2 : Fs.Run s2 [⟨.create path, true⟩, ⟨.append path (R.codec.enc (newCred R hd kh ks)), true⟩] s' := hr2
  cases hr2 with
  | cons h1 h2 =>
    cases h1 with
    | create =>
      cases h2 with
      | cons h3 h4 =>
        cases h4
        cases h3 with
        | append h =>
          have hc := h
          simp only [Files.set, if_pos] at hc
          cases hc
          funext q
          simp only [Files.set, List.nil_append]
          split <;> rfl

theorem diun_idle {A : Http.Aead} {how : Verification R} {cl cl' : Http.Client} {k : KeyRef R} {ty : MfgString}
    {t : Trace (sig R)} (h : Prog.Ends (diun c A how cl) t (.ok (cl', k, ty))) {s s' : Files}
    (hr : Fs.Run s (fileDeeds t) s') : s' = s := by
  obtain ⟨t1, cl1, ks, iv, body, r, cl2, p, t2, der, iv2, body2, r2, rfl, h1, _, q2, _, _⟩ := ends_diun h
  obtain ⟨n, kx, iv0, body0, r0, tok, other, flag, key, rfl, _⟩ := ends_diunKeys h1
  have hr : Fs.Run s (fileDeeds (t2 ++ _)) s' := hr
  rw [fileDeeds_append] at hr
  obtain ⟨s1, r1, hr1⟩ := Fs.run_append hr
  have e1 := q2.files r1
  subst e1
  have hr1 : Fs.Run s1 [] s' := hr1
  cases hr1
  rfl

/-- **C44**, for a client that runs to its end (see `C44_violated` for one that does not): whatever else happened at the server
and on the network, if the client succeeds, then either it has found an active credential, has sent nothing and has not
changed any file, or it has written an active credential, and the server holds a voucher which matches it: the same GUID,
device information, rendezvous information and manufacturer key, and the device accepts the HMAC of the voucher. The voucher has the configured rendezvous information and the form described by `Canonical`. With DIUN
the voucher's device certificate is for the device's own public key. -/
theorem C44_complete_partial {Inv : B.W → Prop} {Has : B.W → Store.Name → Bytes → Prop} (K : KeepStore B Inv Has)
    (L : Laws R.toMfgEnv cfg) (st : Settings R.toMfgEnv) (hst : startup R.toMfgEnv st = some cfg) (W : Wire R cfg encode)
    (hO : Http.Opens aead) (hK : KexLaws R.K) {w : Credential.Surroundings} {args : Args} {t : Trace (sig R)} {h : Histories}
    (hrun : Prog.Ends (main c aead w args) t (.ok ()))
    (htalk : Http.Talk (move B) (Http.start B.empty) (fun rq : Http.Request Srv => rq.oracle.nonInterop) none [] h t)
    (hz : Sized t h) (htpm : TpmFits t)
    (hsm : SmallHeaders R.toMfgEnv c B cfg idOf aead encode h)
    (hid : FreshIds R.toMfgEnv c B cfg idOf aead encode h)
    (hg : (h.filterMap (drawn R.toMfgEnv c B cfg idOf aead encode)).Nodup)
    {s s' : Files} (hfiles : Fs.Run s (fileDeeds t) s') :
    ((∀ d ∈ t, ∀ q, d.1 ≠ .net q) ∧ s' = s) ∨
    ∃ p cr info der v b, credPath w = .ok p ∧ s' = s.set p (some (R.codec.enc cr)) ∧
      (∀ now, (B.load now (Reached h).world (Store.guidText cr.guid)).2 = .ok (some b)) ∧
      (b.length < 2 ^ 63 → deserialize c b = .ok (v, []) ∧ Matches cr v ∧ Certifies R.toMfgEnv cfg v info der ∧
        OwnedAsConfigured R.toMfgEnv c cfg v ∧ Canonical c v ∧ v.header.rv = cfg.rv) ∧
      ((given w args).isSome → PublicOf (R := R) cr der) ∧
      cr.active = true ∧ cr.version = 101 ∧ cr.guid.length = 16 ∧ cr.rvinfo = R.E.encRv cfg.rv := by
  rcases ends_main hrun with hi | ⟨t0, t1, rfl, q0, hcase⟩
  · exact .inl ⟨hi.silent, hi.files hfiles⟩
  refine .inr ?_
  obtain ⟨h0, h1, rfl, u0, htalk1⟩ := Http.talk_quiet q0.silent htalk
  rw [fileDeeds_append] at hfiles
  obtain ⟨s1, hf1, hf2⟩ := Fs.run_append hfiles
  have e1 := q0.files hf1
  subst e1
  rcases hcase with ⟨k, ty, i, hgiven, hdi⟩ | ⟨how, cl, k, ty, i, u0, u1, u2, hgiven, rfl, q1, hdiun, hdi⟩
  · obtain ⟨info, hd, hb, hmac, kh, ks, p, hrun⟩ := ends_di hdi
    obtain ⟨der, v, b, h2, h3, _, hgl, hrv⟩ := di_talk K L st hst W hO (p := h0) hsm hid hg (Http.Sync.new _) hrun
      (fun pub priv data r hr => htpm pub priv data r (List.mem_append_right _ hr)) htalk1
    refine ⟨p, newCred R hd kh ks, info, der, v, b, hrun.path, di_files hrun hf2, h2, h3, ?_, rfl, rfl, hgl, by rw [← hrv]; rfl⟩
    rw [hgiven]
    exact nofun
  · obtain ⟨h2, h3, j, se, der, rfl, hsync, hdk, hpub, htalk2⟩ := diun_talk L W hO hK hdiun
      ⟨fun k r hr => hz.client k r (List.mem_append_right _ (List.mem_append_left _ hr)),
        fun rq m k r hr => hz.server rq m k r (List.mem_append_right _ hr)⟩ htalk1
    obtain ⟨h4, h5, rfl, u5, htalk3⟩ := Http.talk_quiet q1.silent htalk2
    obtain ⟨info, hd, hb, hmac, kh, ks, p, hrun⟩ := ends_di hdi
    have hall : h0 ++ (h2 ++ (h4 ++ h5)) = (h0 ++ h2 ++ h4) ++ h5 := by simp
    rw [hall] at hsm hid hg ⊢
    obtain ⟨der', v, b, g2, g3, g4, hgl, hrv⟩ := di_talk K L st hst W hO hsm hid hg (hsync.move u5) hrun
      (fun pub priv data r hr => htpm pub priv data r
        (List.mem_append_right _ (List.mem_append_right _ (List.mem_append_right _ hr)))) htalk3
    rw [fileDeeds_append, fileDeeds_append] at hf2
    obtain ⟨s2, hf3, hf4⟩ := Fs.run_append hf2
    have e2 := diun_idle hdiun hf3
    subst e2
    obtain ⟨s3, hf5, hf6⟩ := Fs.run_append hf4
    have e3 := q1.files hf5
    subst e3
    refine ⟨p, newCred R hd kh ks, info, der', v, b, hrun.path, di_files hrun hf6, g2, g3, fun _ => ?_, rfl, rfl, hgl, by rw [← hrv]; rfl⟩
    have hdd := g4 der hdk
    subst hdd
    have hkeys := hrun.keys
    cases k with
    | fs sk hk =>
      simp only [KeyRef.toStorage, Option.map_eq_some_iff] at hkeys
      obtain ⟨d, hd1, rfl⟩ := hkeys
      exact ⟨sk, hd1, hpub⟩
    | tpm a b c d =>
      cases hkeys
      exact hpub

end

end Verif.MfgClient
