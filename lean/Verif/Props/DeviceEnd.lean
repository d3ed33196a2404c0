import Verif.Props.DeviceSi
/-!
How the device's client ends: what a successful run has done, and when the device reboots (C48, C54).
-/
namespace Verif.Device
open Verif Verif.Voucher Verif.Types Verif.ServiceInfo Verif.Fs
variable {R : DevEnv} {c : Bool} {A : Http.Aead} {w : Credential.Surroundings} {h : SiClient.Host} {l : Credential.Location}
  {cr : Credential.Cred} {to1d : Sign1}

/-- No reboot. -/
def Stays (e : (sig R).Eff) : Prop := e ≠ .app .reboot

theorem stays_iv : Stays (R := R) .iv := nofun
theorem stays_net (s : Http.Sent) : Stays (R := R) (.net s) := nofun

theorem stays_say {α : Type} {dec : Bytes → Option α} {cl : Http.Client} {om sm : MsgType} {plain : Bytes}
    {nk : Option (Option Http.Keys)} : Prog.Only Stays (say A dec cl om sm plain nk : Step R _) :=
  only_say stays_iv fun s _ => stays_net s

theorem stays_entries : ∀ (k : Nat) {cl : Http.Client} {i : Nat} {got : List Bytes},
    Prog.Only (S := sig R) Stays (entriesFrom (R := R) c A cl i got k)
  | 0, _, _, _ => Proc.only_pure
  | k + 1, _, _, _ => Proc.only_bind stays_say fun _ => Proc.only_bind Proc.only_check fun _ => stays_entries k

theorem stays_to2 {cl : Http.Client} : Prog.Only (S := sig R) Stays (to2 c A w h l cr to1d cl : Step R _) :=
  Proc.only_bind (Proc.only_bind (only_freshNonce nofun) fun _ =>
    Proc.only_bind (Proc.only_bind stays_say fun _ =>
      Proc.only_bind only_given fun _ => Proc.only_bind Proc.only_some? fun _ => Proc.only_pure) fun _ =>
    Proc.only_bind (Proc.only_bind (stays_entries _) fun _ => Proc.only_bind only_given fun _ => Proc.only_pure) fun _ =>
    Proc.only_bind (Proc.only_bind Proc.only_some? fun _ => Proc.only_bind (Http.only_app (X := ops R) nofun) fun _ =>
      Proc.only_bind Proc.only_some? fun _ => Proc.only_bind only_given fun _ => Proc.only_pure) fun _ =>
      Proc.only_pure) fun _ =>
  Proc.only_bind (only_freshNonce nofun) fun _ =>
  Proc.only_bind (Proc.only_bind (only_signToken nofun) fun _ => Proc.only_bind stays_say fun _ => Proc.only_pure) fun _ =>
  Proc.only_bind (Proc.only_bind stays_say fun _ => Proc.only_pure) fun _ =>
  Proc.only_bind (only_serviceInfos (fun _ _ => nofun) stays_iv fun s _ => stays_net s) fun _ =>
  Proc.only_bind (Proc.only_bind (Proc.only_mapErr (only_files (fun _ => nofun) _)) fun _ =>
    Proc.only_mapErr (only_files (fun _ => nofun) _)) fun _ =>
  Proc.only_bind (Proc.only_bind stays_say fun _ => Proc.only_check) fun _ => Proc.only_pure

theorem stays_to1 {cl : Http.Client} : Prog.Only (S := sig R) Stays (to1 c A cr cl : Step R _) :=
  Proc.only_bind (Proc.only_bind stays_say fun _ =>
    Proc.only_bind Proc.only_check fun _ => Proc.only_bind (only_signToken nofun) fun _ => Proc.only_pure) fun _ =>
  Proc.only_bind stays_say fun _ => Proc.only_pure

theorem stays_getTo1d : ∀ us, Prog.Only (S := sig R) Stays (getTo1d (R := R) c A cr us)
  | [] => Proc.only_pure
  | _ :: us => Proc.only_bind (Http.only_app (X := ops R) nofun) fun _ =>
      Proc.only_bind (Proc.only_attempt (only_reporting stays_to1 nofun stays_iv fun s _ => stays_net s)) fun s => match s with
        | some _ => Proc.only_pure
        | none => stays_getTo1d us

theorem stays_tryAddrs : ∀ us, Prog.Only (S := sig R) Stays (tryAddrs (R := R) c A w h l cr to1d us)
  | [] => Proc.only_pure
  | _ :: us => Proc.only_bind (Http.only_app (X := ops R) nofun) fun _ =>
      Proc.only_bind (Proc.only_attempt (only_reporting stays_to2 nofun stays_iv fun s _ => stays_net s)) fun s => match s with
        | some _ => Proc.only_pure
        | none => stays_tryAddrs us

theorem stays_tryEntries : ∀ rv, Prog.Only (S := sig R) Stays (tryEntries (R := R) c A w h l cr rv)
  | [] => Proc.only_pure
  | i :: rv => by
    unfold tryEntries
    split
    · exact stays_tryEntries rv
    · refine Proc.only_bind (stays_getTo1d _) fun s => ?_
      cases s with
      | none => exact stays_tryEntries rv
      | some s =>
        simp only
        split
        · exact stays_tryEntries rv
        · refine Proc.only_bind (stays_tryAddrs _) fun b => ?_
          cases b with
          | none => exact stays_tryEntries rv
          | some b => exact Proc.only_pure

theorem stays_onboard {rv : List Rendezvous.Interp} : ∀ n, Prog.Only (S := sig R) Stays (onboard (R := R) c A w h l cr rv n)
  | 0 => Proc.only_fail
  | n + 1 => Proc.only_bind (stays_tryEntries rv) fun b => match b with
    | some _ => Proc.only_pure
    | none => Proc.only_bind (Http.only_app (X := ops R) nofun) fun _ => stays_onboard n

theorem not_connected_ends {b : Bool} {mid : Trace (sig R)}
    (h1 : Prog.Ends (to2 c A w h l cr to1d .new : Step R _) mid (.ok b)) (u : String) : connected u ∉ mid :=
  not_connected same_to2 ⟨_, h1⟩ u

/-- A reboot follows a successful attempt. -/
theorem reaches_reboot {n : Nat} {t : Trace (sig R)} {a : Option Bool}
    (hr : Proc.Reaches (main (R := R) c A w h n) t ⟨.app .reboot, a⟩) :
    ∃ l cr s mid, Attempt c w l cr s t mid ∧ Prog.Ends (to2 c A w h l cr s .new : Step R _) mid (.ok true) := by
  unfold main at hr
  split at hr
  · rcases Proc.reaches_bind hr with hr1 | ⟨_, _, _, _, _, hr1⟩
    · exact absurd (Proc.reaches_ask hr1).2 nofun
    · exact absurd (Proc.does_check hr1.choose_spec) (by simp)
  next hm =>
  split at hr
  · exact absurd (Proc.does_pure hr.choose_spec) (by simp)
  · exact absurd (Proc.does_fail hr.choose_spec) (by simp)
  · exact absurd (Prog.steps_ret hr.choose_spec.choose_spec).1 (by simp)
  next l hf =>
  rcases Proc.reaches_bind hr with hr2 | ⟨cr, t1, t2, rfl, h1, hr2⟩
  · exact absurd (does_files_readCred hr2.choose_spec ⟨.app .reboot, a⟩ (by simp)) nofun
  obtain ⟨b, h1, hb⟩ := ends_files_readCred h1
  unfold start at hr2
  split at hr2
  · exact absurd (Proc.does_pure hr2.choose_spec) (by simp)
  next ha =>
  split at hr2
  · exact absurd (Proc.does_fail hr2.choose_spec) (by simp)
  next hv =>
  rcases Proc.reaches_bind hr2 with hr3 | ⟨rv, u1, u2, rfl, h2, hr3⟩
  · exact absurd (Proc.does_lift hr3.choose_spec) (by simp)
  obtain ⟨rfl, h2⟩ := Proc.ends_lift h2
  rcases Proc.reaches_bind hr3 with hr4 | ⟨b', u1, u3, rfl, h3, hr4⟩
  · exact absurd rfl (stays_onboard _ _ hr4.choose_spec ⟨.app .reboot, a⟩ (by simp))
  · cases b' with
    | false => exact absurd (Proc.does_pure hr4.choose_spec) (by simp)
    | true =>
      rcases Proc.reaches_bind hr4 with hr5 | ⟨r, v1, v2, rfl, h4, hr5⟩
      · obtain ⟨rfl, _⟩ := Proc.reaches_ask hr5
        obtain ⟨s, mid, hl, h5⟩ := ends_onboard _ _ h3
        exact ⟨l, cr, s, mid, attempt_of hf (by simpa using hm) h1 hb (by simpa using ha) (by simpa using hv) hl
          (not_connected_ends h5) (by simp), h5⟩
      · obtain ⟨r', q, hr6⟩ := hr5
        cases (r : Option Bool) with
        | none => exact absurd (Prog.steps_ret hr6).1 (by simp)
        | some ok => exact absurd (Proc.does_check ⟨q, hr6⟩) (by simp)

/-- What a run that ended well has done. -/
theorem ends_main {n : Nat} {t : Trace (sig R)} (he : Prog.Ends (main (R := R) c A w h n) t (.ok ()))
    (hm : w.exists? (markerPath w) = false) (hf : Credential.find w = some (.ok l)) :
    ∃ cr, ReadFrom l t cr ∧ (cr.active = false ∨ ∃ s mid t' b, t = t' ++ (if b then [⟨.app .reboot, some true⟩] else []) ∧
      Attempt c w l cr s t' mid ∧ Prog.Ends (to2 c A w h l cr s .new : Step R _) mid (.ok b)) := by
  unfold main at he
  rw [if_neg (by simp [hm]), hf] at he
  obtain ⟨cr, t1, t2, rfl, h1, he1⟩ := Proc.ends_bind he
  obtain ⟨b, h1, hb⟩ := ends_files_readCred h1
  refine ⟨cr, ⟨b, by simp [h1], hb⟩, ?_⟩
  unfold start at he1
  split at he1
  · next ha => exact .inl (by simpa using ha)
  next ha =>
  split at he1
  · exact (Proc.ends_fail he1).elim
  next hv =>
  obtain ⟨rv, u1, u2, rfl, h2, he2⟩ := Proc.ends_bind he1
  obtain ⟨rfl, h2⟩ := Proc.ends_lift h2
  obtain ⟨b', u1, u3, rfl, h3, he3⟩ := Proc.ends_bind he2
  obtain ⟨s, mid, hl, h5⟩ := ends_onboard _ _ h3
  refine .inr ⟨s, mid, t1 ++ u1, b', ?_, attempt_of hf hm h1 hb (by simpa using ha) (by simpa using hv) hl
    (not_connected_ends h5) rfl, h5⟩
  cases b' with
  | false =>
    obtain ⟨rfl, _⟩ := Proc.ends_pure he3
    simp
  | true =>
    obtain ⟨r, v1, v2, rfl, h4, he4⟩ := Proc.ends_bind he3
    obtain ⟨r', ha, rfl⟩ := Http.ends_app h4
    cases ha
    cases hr : (r : Option Bool) with
    | none =>
      have hr : r = none := hr
      subst hr
      cases (Prog.ends_ret he4).2
    | some ok =>
      have hr : r = some ok := hr
      subst hr
      obtain ⟨rfl, hok⟩ := Proc.ends_check he4
      have hok : ok = true := hok
      subst hok
      simp

/-- **C48**, what holds at the end: if the client ends without an error and the credential is active, then it was onboarded by
an owner that was vetted: service info is complete, the device is marked and its credential deactivated, and the owner's server
has acknowledged this with the nonce chosen by the device. **C54**: the device then reboots if and only if service info has
asked for it. -/
theorem C48_ends_partial (C : CodecLaws R.E) (S : Sized R) (n : Nat) (t : Trace (sig R))
    (he : Prog.Ends (main (R := R) c A w h n) t (.ok ())) (hm : w.exists? (markerPath w) = false)
    (hf : Credential.find w = some (.ok l)) :
    ∃ cr, ReadFrom l t cr ∧ (cr.active = false ∨ ∃ to1d n5 iv reply rest t' b,
      t = t' ++ (if b then [⟨.app .reboot, some true⟩] else []) ∧ Attempt c w l cr to1d t' (hello cr n5 iv reply ++ rest) ∧
      Onboarded c A w h l cr to1d n5 reply rest b) := by
  obtain ⟨cr, h1, h2⟩ := ends_main he hm hf
  refine ⟨cr, h1, h2.imp id ?_⟩
  rintro ⟨s, mid, t', b, h3, h4, h5⟩
  obtain ⟨n5, iv, reply, rest, rfl, h6⟩ := to2_ends C S h5
  exact ⟨s, n5, iv, reply, rest, t', b, h3, h4, h6⟩

/-- **C54**, in the whole client: the device reboots only at the end of an attempt that succeeded and in which some message of
service info, decrypted under the key agreed on with the vetted owner, has a last reboot instruction that asks for it. -/
theorem C54_reboot_only (C : CodecLaws R.E) (S : Sized R) (n : Nat) (t : Trace (sig R)) (a : Option Bool)
    (hr : Proc.Reaches (main (R := R) c A w h n) t ⟨.app .reboot, a⟩) :
    ∃ l cr to1d n5 iv reply rest p ks x ts si y, Attempt c w l cr to1d t (hello cr n5 iv reply ++ rest) ∧
      Onboarded c A w h l cr to1d n5 reply rest true ∧ rest = x ++ si ++ y ∧ Vetted c cr to1d n5 reply x p ∧
      SessionKey x p.kexA ks ∧ Conveyed A ks ts si ∧ ∃ m ∈ SiClient.received ts, SiClient.AsksReboot (siItems R.decVal m.si) := by
  obtain ⟨l, cr, s, mid, ha, he⟩ := reaches_reboot hr
  obtain ⟨n5, iv, reply, rest, rfl, ho⟩ := to2_ends C S he
  have ho' := ho
  obtain ⟨p, ks, x, ts, si, fs, y, rfl, h1, h2, h3, h4, h5⟩ := ho'
  obtain ⟨ms, r, g1, _, _, _, g2⟩ := SiClient.C54_reboot R.encVal R.decVal ts true h4
  obtain ⟨m, hm, hasks⟩ := g2.1 rfl
  exact ⟨l, cr, s, n5, iv, reply, _, p, ks, x, ts, si, fs ++ y, ha, ho, by simp, h1, h2, h3, m, by simp [g1, hm], hasks⟩

end Verif.Device
