import Verif.Props.PerDevice
import Verif.Props.StartupSiExample
/-!
Cases of C98: three devices, of which one has settings of its own, and one has a file with a misspelt name.
-/
namespace Verif.Startup.DevToy
open Verif Verif.Settings Verif.Store

/-- Names of variants as they are. -/
def S : Reads := { SiToy.S with
  variant := fun names x => match x with
    | .leaf s => if s ∈ names then some s else none
    | .table _ => none }

def bindOk (_ : Val) : Bool := true

def main : Val := .table [("service_info", SiToy.section' "[motd]" []), ("bind", .leaf "0.0.0.0:8083"),
  ("device_specific_store_driver", .table [("Directory", .table [("path", .leaf "/d")])]), ("service_info_auth_token", .leaf "s")]

def guid (n : UInt8) : Bytes := List.replicate 16 n

/-- The settings for the first device: another user, and no reboot. -/
def first : List (String × Val) :=
  [("initial_user", .table [("username", .leaf "first"), ("sshkeys", .leaf "~")]), ("after_onboarding_reboot", .leaf "false")]

/-- The settings for the second device have a misspelt name. -/
def second : List (String × Val) := [("intial_user", .table [("username", .leaf "second")])]

def sys : Sys where
  env _ := none
  file p :=
    if p = "/etc/fdo/serviceinfo-api-server.yml" then .holds main.fields
    else if p = devicePath "/d" (guid 1) then .holds first
    else if p = devicePath "/d" (guid 2) then .holds second
    else .missing
  glob _ := some []

theorem path_one : devicePath "/d" (guid 1) = "/d/01010101-0101-0101-0101-010101010101.yml" := by decide +kernel

theorem main_wf : main.Wf := by
  simp [main, SiToy.section', Val.Wf, WfAll]

theorem reads_main : settingsFor sys "serviceinfo-api-server" = .ok main := by
  have e1 : etcPath sys "serviceinfo-api-server" = "/etc/fdo/serviceinfo-api-server.yml" := by decide +kernel
  have e2 : sharePath "serviceinfo-api-server" = "/usr/share/fdo/serviceinfo-api-server.yml" := by decide +kernel
  have e3 : sys.file "/etc/fdo/serviceinfo-api-server.yml" = .holds main.fields := by unfold sys; simp only [if_true]
  have e4 : sys.file "/usr/share/fdo/serviceinfo-api-server.yml" = .missing := by
    unfold sys
    simp only
    rw [if_neg (by decide +kernel), if_neg (by decide +kernel), if_neg (by decide +kernel)]
  have e5 : setAll (.table []) main.fields = main := setAll_self [] main.fields (by rw [List.nil_append]; exact main_wf.1) main_wf.2
  have e6 : settingsFor sys "serviceinfo-api-server" = collectAll sys false (setAll (.table []) [])
      [etcPath sys "serviceinfo-api-server", sharePath "serviceinfo-api-server"] := rfl
  rw [e6, e1, e2]
  simp only [collectAll, collect, e3, e4, Bool.false_eq_true, if_false]
  rw [show setAll (setAll (.table []) []) main.fields = main from e5]
  rfl

/-- The hypothesis about the settings is met. -/
theorem keeps : Keeps S bindOk main "/d" where
  readable := by
    have h : (match structOf (onlyFields siNames (siSettingsOf S)) (SiToy.section' "[motd]" []) with
      | .ok _ => true
      | _ => false) = true := by decide +kernel
    split at h
    · rename_i x hx
      obtain ⟨h1, hx⟩ := structOf_iff.1 hx
      unfold onlyFields at hx
      split at hx
      · rename_i hn
        exact ⟨_, x, rfl, h1, fun p hp => List.contains_iff_mem.1 (List.all_eq_true.1 hn p hp), siSettingsOf_iff.1 hx⟩
      · cases hx
    · cases h
  bind := ⟨_, rfl, rfl⟩
  tokens := by
    intro n hn
    simp only [List.mem_cons, List.not_mem_nil, or_false] at hn
    rcases hn with rfl | rfl
    · exact ⟨some "s".toList, ⟨_, rfl, by rintro s ⟨⟩; decide⟩, _, rfl, _, _, rfl, rfl, rfl⟩
    · exact ⟨none, by rintro ⟨x, hx, -⟩; cases hx⟩
  store := ⟨_, _, _, rfl, by decide, rfl, rfl⟩

/-- The first device gets its user. -/
example : (perDevice S sys bindOk (guid 1)).map (·.map (·.username)) = some (some "first".toList) := by
  rw [perDevice_eq reads_main keeps]
  have : sys.file (devicePath "/d" (guid 1)) = .holds first := by
    unfold sys
    simp only
    rw [if_neg (by decide +kernel), if_true]
  rw [this]
  decide +kernel

/-- The second one, and the third one, which has no file, get the general user. -/
theorem second_overlooked : perDevice S sys bindOk (guid 2) = none := by
  refine C98_malformed_violated reads_main keeps (devicePath_for _ _) (.inr ⟨second, "intial_user", _, ?_, ?_, .head _, by decide⟩)
  · unfold sys
    simp only
    rw [if_neg (by decide +kernel), if_neg (by decide +kernel), if_true]
  · simp [second, Val.Wf, WfAll]

example : perDevice S sys bindOk (guid 3) = none := by
  refine C98_default reads_main keeps (devicePath_for _ _) ?_
  unfold sys
  simp only
  rw [if_neg (by decide +kernel), if_neg (by decide +kernel), if_neg (by decide +kernel)]

/-- The hypotheses of `C98_own_partial` are met. -/
example : (Val.table first).Wf ∧ (∃ x, Says S (.table first) x ∧ x.user.isSome = true ∧ x.reboot = some false) ∧
    ∀ q ∈ first, q.1 ∈ ["initial_user", "files", "commands", "diskencryption_clevis", "additional_serviceinfo", "after_onboarding_reboot"] := by
  refine ⟨by simp [first, Val.Wf, WfAll], ?_, by decide +kernel⟩
  have h : (match siSettingsOf S (.table first) with
    | .ok x => x.user.isSome && x.reboot = some false
    | _ => false) = true := by decide +kernel
  split at h
  · rename_i x hx
    simp only [Bool.and_eq_true, decide_eq_true_eq] at h
    exact ⟨x, siSettingsOf_iff.1 hx, h⟩
  · cases h

/-- The server is started from these settings, and its reply for the first device has the user of this device; but also the
file and the reboot of the general settings, although the settings for this device say that there is none. -/
example : (match serviceInfo S SiToy.W true [] main with
    | .ok s => (match SiApi.handler s.config (some (some ⟨"first".toList, none, none⟩)) ⟨1, guid 1, [.sshKey, .binaryFile, .reboot]⟩ with
      | some r => r.reboot = some true && (r.extra.getD []).length = 5
      | none => false)
    | _ => false) = true := by decide +kernel

/-- The hypotheses of `C98_reply_partial` are met. -/
example : ∃ s r, fromFiles sys "serviceinfo-api-server" (serviceInfo S SiToy.W true []) = .ok s ∧
    Url.ask ⟨perDevice S sys bindOk, id, true⟩ (SiApi.steps s []) (some "s".toList) (ServiceInfo.apiQuery (guidText (guid 1))
      [Types.SiModule.display .sshKey]) = some r ∧ SiPipeline.Unescapes id := by
  unfold fromFiles
  rw [reads_main]
  have h : (match serviceInfo S SiToy.W true [] main with
    | .ok s => (Url.ask ⟨fun _ => none, id, true⟩ (SiApi.steps s []) (some "s".toList) (ServiceInfo.apiQuery (guidText (guid 1))
        [Types.SiModule.display .sshKey])).isSome
    | _ => false) = true := by decide +kernel
  split at h
  · rename_i s hs
    obtain ⟨r, hr⟩ := Option.isSome_iff_exists.1 h
    have : (Url.ask ⟨perDevice S sys bindOk, id, true⟩ (SiApi.steps s []) (some "s".toList) (ServiceInfo.apiQuery (guidText (guid 1))
        [Types.SiModule.display .sshKey])).isSome = true := by
      simp only [Url.ask, SiApi.answer, SiApi.ownerRequest, SiApi.step, SiApi.deviceInfo, Option.map_some, if_true] at hr ⊢
      split at hr
      · rename_i r' hr'
        split at hr'
        · rename_i hauth
          split at hr'
          · cases hr'
          · rename_i q hq
            simp only [SiApi.handler] at hr' ⊢
            split at hr'
            · cases hr'
            · rename_i x hx
              split at hx
              · cases hx
              · rename_i hver
                simp only [hauth, hq, if_true, if_neg hver]
                rfl
        · cases hr'
      · cases hr
    obtain ⟨r, hr⟩ := Option.isSome_iff_exists.1 this
    exact ⟨s, r, hs, hr, fun _ _ _ => rfl⟩
  · cases h

end Verif.Startup.DevToy
