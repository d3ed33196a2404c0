import Verif.Props.Settings
/-!
A case of C82: a server with two files in its directory, a file in `/etc`, and one in `/usr/share`.
-/
namespace Verif.Settings.Toy
open Verif Verif.Settings

def dirA : List (String × Val) := [("bind", .leaf "0.0.0.0:1"), ("session_store_driver", .table [("Directory", .table [("path", .leaf "/a")])])]
def dirB : List (String × Val) := [("session_store_driver", .table [("Directory", .table [("path", .leaf "/b")])])]
def mine : List (String × Val) := [("bind", .leaf "127.0.0.1:8082"), ("max_wait_seconds", .leaf "60")]
def theirs : List (String × Val) := [("bind", .leaf "0.0.0.0:8082")]

/-- The surroundings; `share` tells whether there is a file in `/usr/share`. -/
def sys (share : Bool) : Sys where
  env k := if k = "RENDEZVOUS_SERVER_CONF" then some "/root/mine.yml" else none
  file p :=
    if p = "/etc/fdo/rendezvous-server.conf.d/a.yml" then .holds dirA
    else if p = "/etc/fdo/rendezvous-server.conf.d/b.yml" then .holds dirB
    else if p = "/root/mine.yml" then .holds mine
    else if p = "/usr/share/fdo/rendezvous-server.yml" then if share then .holds theirs else .missing
    else .missing
  glob s := if s = "/etc/fdo/rendezvous-server.conf.d/*.yml" then
    some [some "/etc/fdo/rendezvous-server.conf.d/a.yml", some "/etc/fdo/rendezvous-server.conf.d/b.yml"] else some []

theorem wf (share : Bool) : ∀ p l, (sys share).file p = .holds l → (Val.table l).Wf := by
  intro p l h
  dsimp only [sys] at h
  have h1 : ∀ d, d = dirA ∨ d = dirB ∨ d = mine ∨ d = theirs → (Val.table d).Wf := by
    rintro d (rfl | rfl | rfl | rfl) <;> simp [dirA, dirB, mine, theirs, Val.Wf, WfAll]
  repeat' split at h
  all_goals first | (cases h; exact h1 _ (by simp)) | cases h

/-- Without a file in `/usr/share` the administrator's file counts for `bind`, and that of the directory for the rest. -/
example : ∃ v, settingsFor (sys false) "rendezvous-server" = .ok v ∧ v.at ["bind"] = some "127.0.0.1:8082" ∧
    v.at ["session_store_driver", "Directory", "path"] = some "/b" ∧ v.at ["max_wait_seconds"] = some "60" := ⟨_, rfl, by decide +kernel⟩

theorem started (share : Bool) : ∃ v, settingsFor (sys share) "rendezvous-server" = .ok v := by
  cases share
  · exact ⟨_, rfl⟩
  · exact ⟨_, rfl⟩

example : ∃ v, settingsFor (sys false) "rendezvous-server" = .ok v ∧ v.at ["bind"] = some "127.0.0.1:8082" := by
  obtain ⟨v, h⟩ := started false
  obtain ⟨glob, hg, h1⟩ := C82_last_word (wf false) h
  refine ⟨v, h, (h1 _ _).2 ?_⟩
  have : glob = ["/etc/fdo/rendezvous-server.conf.d/a.yml", "/etc/fdo/rendezvous-server.conf.d/b.yml"] := by
    have h2 : some [some "/etc/fdo/rendezvous-server.conf.d/a.yml", some "/etc/fdo/rendezvous-server.conf.d/b.yml"] = some (glob.map some) := by
      rw [← hg]; decide +kernel
    match glob, h2 with
    | [a, b], h2 => simp only [List.map_cons, List.map_nil, Option.some.injEq, List.cons.injEq, and_true] at h2; rw [h2.1, h2.2]
  subst this
  decide +kernel

/-- With such a file it does not. -/
example : ∃ v, settingsFor (sys true) "rendezvous-server" = .ok v ∧ v.at ["bind"] = some "0.0.0.0:8082" := by
  obtain ⟨v, h⟩ := started true
  exact ⟨v, h, C82_named_file_overridden_violated (named := "/root/mine.yml") (mine := mine) (theirs := theirs) (s := "127.0.0.1:8082") (wf true)
    (by decide +kernel) (by rfl) (by rfl) h rfl rfl⟩

/-- A typing error in the name of the file goes unnoticed. -/
example : ∃ v, settingsFor { sys true with env := fun k => if k = "RENDEZVOUS_SERVER_CONF" then some "/root/mime.yml" else none } "rendezvous-server" = .ok v :=
  C82_named_file_missing_violated (named := "/root/mime.yml")
    (glob := ["/etc/fdo/rendezvous-server.conf.d/a.yml", "/etc/fdo/rendezvous-server.conf.d/b.yml"]) (by decide +kernel) rfl rfl
    (by intro p hp; simp only [List.mem_cons, List.not_mem_nil, or_false] at hp; rcases hp with rfl | rfl <;> exact ⟨_, rfl⟩)
    (by intro h; cases h)

/-- A directory as it is named for a container. -/
example : settingsFor ⟨fun k => if k = "RENDEZVOUS_SERVER_CONF_DIR" then some "/conf" else none, fun _ => .missing, fun s => some [some s]⟩
    "rendezvous-server" = .err .notFound :=
  C82_directory_violated (dir := "/conf") (by decide +kernel) rfl rfl

/-- The variables of the four servers. -/
theorem C82_variables : ["manufacturing-server", "owner-onboarding-server", "rendezvous-server", "serviceinfo-api-server"].map confEnv =
    ["MANUFACTURING_SERVER_CONF", "OWNER_ONBOARDING_SERVER_CONF", "RENDEZVOUS_SERVER_CONF", "SERVICEINFO_API_SERVER_CONF"] := by decide +kernel

end Verif.Settings.Toy
