import Verif.Props.StartupSi
import Verif.Props.SiHonest
/-!
Cases of C97: a service info server started from settings like those in HOWTO.md; settings that do not work; misspelt settings that are
overlooked.
-/
namespace Verif.Startup.SiToy
open Verif Verif.Settings

/-- One file, with these fields. -/
def fileSetting (l : List (String × Val)) : Val :=
  .table (("path", .leaf "/etc/motd") :: ("source_path", .leaf "/srv/motd") :: l)

/-- Null is written `~`; arrays are written by names in brackets; texts stand for themselves. -/
def S : Reads where
  isNull s := s == "~"
  text := some
  u32 _ := none
  bool s := if s = "true" then some true else if s = "false" then some false else none
  items s :=
    if s = "[]" then some []
    else if s = "[motd 644]" then some [fileSetting [("permissions", .leaf "644")]]
    else if s = "[motd]" then some [fileSetting []]
    else if s = "[motd misspelt]" then some [fileSetting [("permission", .leaf "644")]]
    else if s = "[motd 888]" then some [fileSetting [("permissions", .leaf "888")]]
    else if s = "[ls]" then some [.table [("command", .leaf "ls"), ("args", .leaf "[/etc]"), ("may_fail", .leaf "true")]]
    else if s = "[/etc]" then some [.leaf "/etc"]
    else if s = "[vda]" then some [.table [("disk_label", .leaf "/dev/vda"), ("reencrypt", .leaf "true"),
      ("binding", .table [("pin", .leaf "test"), ("config", .leaf "{}")])]]
    else if s = "[a=b]" then some [.leaf "a=b"]
    else if s = "a=b" then some [.leaf "a", .leaf "b"]
    else if s = "[key]" then some [.leaf "ssh-rsa a"]
    else none
  variant _ _ := none

/-- The files of the other examples. -/
def W : SiWorld := ⟨SiPipeline.Toy.read, SiClient.Toy.host.digest .sha384⟩

def section' (files : String) (more : List (String × Val)) : Val :=
  .table ([("initial_user", .table [("username", .leaf "root"), ("sshkeys", .leaf "[key]")]), ("files", .leaf files),
    ("commands", .leaf "[ls]"), ("after_onboarding_reboot", .leaf "true")] ++ more)

def whole (s : Val) (tokens : List (String × Val)) : Val := .table (("service_info", s) :: tokens)

def tokens : List (String × Val) := [("service_info_auth_token", .leaf "s"), ("admin_auth_token", .leaf "a")]

def started (files : String) (more : List (String × Val)) (t : List (String × Val)) : Option SiApi.Server :=
  match serviceInfo S W true [] (whole (section' files more) t) with
  | .ok s => some s
  | _ => none

/-- The hypotheses of `C97_settings_partial`, `C97_admin`, `C97_token_partial` and `C97_served` are met, with all kinds of settings;
the reply has fourteen extra commands. -/
example : ((started "[motd 644]" [("diskencryption_clevis", .leaf "[vda]"), ("additional_serviceinfo", .table
      [("org.fedoraiot.command", .leaf "[a=b]")])] tokens).map fun s => (s.siToken, s.adminToken, s.config.reboot,
        SiApi.Toy.extras (SiApi.answer SiApi.Toy.oracle s (some "s".toList) (ServiceInfo.apiQuery
          "00000000-0000-0000-0000-000000000001".toList ["org.fedoraiot.command".toList, "org.fedoraiot.binaryfile".toList])))) =
    some (some "s".toList, some "a".toList, some true, some 14) := by decide +kernel

example : Has S.toScalars (whole (section' "[]" []) tokens) "service_info_auth_token" ∧
    Token S (whole (section' "[]" []) tokens) "service_info_auth_token" "s".toList :=
  ⟨⟨_, rfl, by rintro s ⟨⟩; decide⟩, "s", "s", rfl, by decide, rfl, rfl⟩

/-- With the admin token something is stored; with another one, or without, nothing. -/
example : ((started "[]" [] tokens).map fun s =>
    ((SiApi.steps s [(SiApi.Toy.oracle, ⟨.post, ["admin".toList, "v0".toList], some "Bearer a".toList, [], some ⟨[1], []⟩⟩)]).stored.length,
     (SiApi.steps s [(SiApi.Toy.oracle, ⟨.post, ["admin".toList, "v0".toList], some "Bearer s".toList, [], some ⟨[1], []⟩⟩)]).stored.length)) =
    some (1, 0) := by decide +kernel

/-- Permissions that are no octal number, an argument that is no array, a section that is missing: no start. -/
example : (started "[motd 888]" [] tokens).isNone = true ∧ (started "no array" [] tokens).isNone = true ∧
    (match serviceInfo S W true [] (.table tokens) with
      | .err .missing => true
      | _ => false) = true := by decide +kernel

/-- A server for which the hypotheses of `C97_files_partial` and `C97_commands_partial` are met. -/
def server : SiApi.Server := (started "[motd 644]" [] tokens).getD ⟨⟨none, none, none, none, none, none⟩, none, none, []⟩

theorem server_started : serviceInfo S W true [] (whole (section' "[motd 644]" []) tokens) = .ok server := by
  have h : (started "[motd 644]" [] tokens).isSome = true := by decide +kernel
  unfold server
  unfold started at h ⊢
  split
  · rename_i s hs
    rw [hs]
    rfl
  · rename_i hn
    split at h
    · rename_i s hs
      exact absurd hs (hn s)
    · cases h

example : ∃ enc dec m x, SiPipeline.Setup SiClient.Toy.host enc dec W.file x SiApi.Toy.oracle (SiApi.steps server []) (some "s".toList)
    SiPipeline.Toy.guid SiPipeline.Toy.mods "toy".toList m := by
  obtain ⟨t, x, -, -, hx, -⟩ := C97_settings_partial server_started
  obtain ⟨enc, dec, m, hS⟩ := SiPipeline.setup_exists (h := SiClient.Toy.host) (read := W.file) (settings := x) (o := SiApi.Toy.oracle)
    (s := server) (token := some "s".toList) (guid := SiPipeline.Toy.guid) (mods := SiPipeline.Toy.mods) hx (fun _ _ _ => rfl) rfl (by
      intro y hy
      simp only [SiPipeline.Toy.mods, List.mem_cons, List.not_mem_nil, or_false] at hy
      rcases hy with rfl | rfl | rfl | rfl | rfl <;> (intro s hs; cases hs)) "toy".toList
    (Option.isSome_iff_exists.1 (by decide +kernel))
  exact ⟨enc, dec, m, x, hS⟩

end Verif.Startup.SiToy

namespace Verif.Startup
open Verif Verif.Settings

open SiToy

/-- **C97** is violated: unknown settings outside the section about service info are overlooked. A server whose token is misspelt starts,
and gives everybody the service info. -/
theorem C97_token_violated : ∃ S W v s, serviceInfo S W true [] v = .ok s ∧
    v.at ["service_info_token"] = some "secret" ∧ ∃ o q x, (SiApi.step o s ⟨.get, ["device_info".toList], some "anything".toList, q, none⟩).2 =
      .info x ∧ x.user.isSome = true := by
  have key : (match serviceInfo S W true [] (whole (section' "[]" []) [("service_info_token", .leaf "secret")]) with
    | .ok s => (match (SiApi.step SiApi.Toy.oracle s ⟨.get, ["device_info".toList], some "anything".toList, SiApi.Toy.query, none⟩).2 with
      | .info x => x.user.isSome
      | _ => false)
    | _ => false) = true := by decide +kernel
  split at key
  · rename_i s hs
    split at key
    · rename_i x hx
      exact ⟨S, W, _, s, hs, rfl, _, _, x, hx, key⟩
    · cases key
  · cases key

/-- **C97** is violated: so are those of a single file. Permissions that are misspelt are not used. -/
theorem C97_permissions_violated : ∃ S W v s, serviceInfo S W true [] v = .ok s ∧
    (∃ t y x, field v.fields "service_info" = some t ∧ t.at ["files"] = some y ∧ S.items y = some [x] ∧ x.at ["permission"] = some "644") ∧
    ∃ f, s.config.files = some [f] ∧ f.permissions = none := by
  have key : (match serviceInfo S W true [] (whole (section' "[motd misspelt]" []) tokens) with
    | .ok s => (match s.config.files with
      | some [f] => f.permissions.isNone
      | _ => false)
    | _ => false) = true := by decide +kernel
  split at key
  · rename_i s hs
    split at key
    · rename_i f hf
      exact ⟨S, W, _, s, hs, ⟨_, _, _, rfl, rfl, rfl, rfl⟩, f, hf, Option.isNone_iff_eq_none.1 key⟩
    · cases key
  · cases key

/-- **C97** is violated: by its documentation (HOWTO.md:668), a section may have the setting `additional_service_info`. With it, no server
starts. -/
theorem C97_documented_violated {S : Reads} {W : SiWorld} {rest : Bool} {stored : List SiApi.AdminRequest} {v t y : Val}
    (ht : field v.fields "service_info" = some t) (hy : ("additional_service_info", y) ∈ t.fields) (s : SiApi.Server) :
    serviceInfo S W rest stored v ≠ .ok s :=
  C97_misspelt_partial ht hy (by decide) s

/-- Its hypotheses are met. -/
example : started "[]" [("additional_serviceinfo", .leaf "~")] tokens ≠ none ∧
    (started "[]" [("additional_service_info", .leaf "~")] tokens).isNone = true ∧
    field (whole (section' "[]" [("additional_service_info", .leaf "~")]) tokens).fields "service_info" =
      some (section' "[]" [("additional_service_info", .leaf "~")]) :=
  ⟨Option.isSome_iff_ne_none.1 (by decide +kernel), by decide +kernel, rfl⟩

/-- **C97** is violated: by its documentation (HOWTO.md:648), the source of a file must be under `/var/lib/fdo/`. Others are served just
as well. -/
theorem C97_source_violated : ∃ S W v s, serviceInfo S W true [] v = .ok s ∧ (∃ f, s.config.files = some [f] ∧ f.contentsHex ≠ []) ∧
    ∀ p b, W.file p = some b → ¬ "/var/lib/fdo/".toList <+: p := by
  have key : (match serviceInfo S W true [] (whole (section' "[motd]" []) tokens) with
    | .ok s => (match s.config.files with
      | some [f] => !f.contentsHex.isEmpty
      | _ => false)
    | _ => false) = true := by decide +kernel
  split at key
  · rename_i s hs
    split at key
    · rename_i f hf
      refine ⟨S, W, _, s, hs, ⟨f, hf, fun h => by rw [h] at key; cases key⟩, fun p b hp hpre => ?_⟩
      simp only [W, SiPipeline.Toy.read] at hp
      split at hp
      · rename_i h
        subst h
        revert hpre
        decide
      · cases hp
    · cases key
  · cases key

end Verif.Startup
