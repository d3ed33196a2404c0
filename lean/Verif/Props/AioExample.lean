import Verif.Props.Aio
import Verif.Props.UrlExample
/-!
Cases of C81: a host with two interfaces, one without, and a server started with the settings made for it.
-/
namespace Verif.Aio.Toy
open Verif Verif.Rendezvous Verif.Aio

/-- The text with these code points, in unary. -/
def chars : Nat → Bytes → List Char
  | _, [] => []
  | n, 0 :: r => chars (n + 1) r
  | n, _ :: r => Char.ofNat n :: chars 0 r

theorem chars_one (n m : Nat) (r : Bytes) : chars n (List.replicate m 0 ++ 1 :: r) = Char.ofNat (n + m) :: chars 0 r := by
  induction m generalizing n with
  | zero => rfl
  | succ m ih =>
    rw [List.replicate_succ, List.cons_append, show chars n (0 :: (List.replicate m 0 ++ 1 :: r)) = chars (n + 1) (List.replicate m 0 ++ 1 :: r) from rfl, ih,
      Nat.add_assoc, Nat.add_comm 1 m]

theorem chars_all (l : List Char) : chars 0 (l.flatMap fun c => List.replicate c.toNat 0 ++ [1]) = l := by
  induction l with
  | nil => rfl
  | cons c l ih =>
    rw [List.flatMap_cons, List.append_assoc, List.singleton_append, chars_one, ih, Nat.zero_add, Char.ofNat_toNat]

/-- The addresses of the interfaces. -/
def lo : Bytes := [127, 0, 0, 1]
def eth : Bytes := [192, 168, 1, 10]

/-- External functions: everything can be encoded. -/
def lib : Config.Lib where
  parseIp s := if s = "127.0.0.1" then some lo else if s = "192.168.1.10" then some eth else none
  enc v := some <| match v with
    | .int (.ofNat n) => 1 :: List.replicate n 0
    | .int (.negSucc n) => 2 :: List.replicate n 0
    | .text s => 3 :: s.toList.flatMap fun c => List.replicate c.toNat 0 ++ [1]
    | .bytes b => 4 :: b
    | _ => [0]
  dec b := match b with
    | 1 :: r => some (.int (.ofNat r.length))
    | 2 :: r => some (.int (.negSucc r.length))
    | 3 :: r => some (.text (String.ofList (chars 0 r)))
    | 4 :: r => some (.bytes r)
    | _ => some .null
  hash _ := none

theorem lib_good : lib.Good where
  null b h := by cases h; rfl
  int i b h := by
    cases i <;> cases h
    · exact congrArg (fun n => some (Config.Value.int (.ofNat n))) List.length_replicate
    · exact congrArg (fun n => some (Config.Value.int (.negSucc n))) List.length_replicate
  text s b h := by
    cases h
    exact congrArg (fun l => some (Config.Value.text l)) ((congrArg String.ofList (chars_all s.toList)).trans String.ofList_toList)
  bytes x b h := by cases h; rfl
  ip s b h := by
    dsimp only [lib] at h
    repeat' split at h
    all_goals cases h
    all_goals exact .inl rfl

theorem lib_enc (v : Config.Value) : ∃ b, lib.enc v = some b := ⟨_, rfl⟩

/-- The device's external functions, with addresses written as usual. -/
abbrev env : Device.DevEnv := { Device.Toy.env with showIp := Url.Toy.show_ }

theorem read : ∀ b, some b ∈ [none, some lo, some eth] → lib.parseIp (env.showIp b) = some b := by
  intro b hb
  simp only [List.mem_cons, Option.some.injEq, List.not_mem_nil, or_false, reduceCtorEq, false_or] at hb
  rcases hb with rfl | rfl <;> decide +kernel

/-- On a host with a loopback device and one other, all goes well. Settings, keys and certificates fit together, and the servers are
reached under the second address. -/
example : ∃ t rv api mfg own, Prog.Ends (generate env.showIp "/etc/fdo/aio" Args.default) t (.ok ()) ∧
    files t "/etc/fdo/aio/configs/rendezvous_server.yml" = some (.rv rv) ∧ files t "/etc/fdo/aio/configs/serviceinfo_api_server.yml" = some (.api api) ∧
    files t "/etc/fdo/aio/configs/manufacturing_server.yml" = some (.mfg mfg) ∧ files t "/etc/fdo/aio/configs/owner_onboarding_server.yml" = some (.owner own) ∧
    Fit (files t) rv api mfg own Args.default ∧ Reached lib env mfg own 8082 8081 [.ip eth] := by
  obtain ⟨t, h, h1, h2⟩ := kind_run env.showIp [none, some lo, some eth] "/etc/fdo/aio" Args.default
  obtain ⟨p, a', hm⟩ := C81_success h
  obtain ⟨t', d, cs, t1, t2, rv, api, mfg, own, e, hd, -, -, hw, -, hf1, hf2, hf3, hf4, hfit, -, -, hr⟩ := C81_record lib_good lib_enc (R := env)
    (show (8082 : Nat) < 65536 by decide) (fun l' hl' b hb => by
      cases h1 _ hl'
      exact read b hb) ⟨_, h⟩ hm
  cases h2 _ _ (e ▸ List.mem_append_left _ hd)
  obtain ⟨l', q, hl', hq, rfl⟩ : ∃ (l : List (Option Bytes)) (p : Bytes → Bool), (⟨.interfaces, some l⟩ : sig.Deed) ∈ t' ∧ (∀ b, p b = true ↔ ¬ Wanted.Local b) ∧
    cs = ((l.filterMap id).filter p).map .ip := hw
  cases h1 _ (e ▸ List.mem_append_left _ hl')
  have hlo : q lo = false := by
    cases hc : q lo with
    | false => rfl
    | true => exact ((hq lo).1 hc (.inl ⟨rfl, .inr (.inl rfl)⟩)).elim
  have heth : q eth = true := (hq eth).2 (by
    rintro (⟨-, h | h | ⟨x, h, h1, -⟩⟩ | ⟨h, -⟩)
    · cases h
    · cases h
    · cases h
      exact absurd h1 (by decide)
    · exact h rfl)
  have hcs : ((([none, some lo, some eth] : List (Option Bytes)).filterMap id).filter q).map Contact.ip = [.ip eth] := by
    rw [show ([none, some lo, some eth] : List (Option Bytes)).filterMap id = [lo, eth] from rfl, List.filter_cons, hlo, List.filter_cons, heth]
    rfl
  rw [hcs] at hr
  exact ⟨t, rv, api, mfg, own, h, hf1, hf2, hf3, hf4, hfit, hr⟩

/-- On a host with a loopback device only, nobody finds the servers. -/
example : ∃ t mfg ds, Prog.Ends (generate env.showIp "/etc/fdo/aio" Args.fromCli) t (.ok ()) ∧
      files t "/etc/fdo/aio/configs/manufacturing_server.yml" = some (.mfg mfg) ∧ Config.load lib mfg.rendezvous = .ok ds ∧
      ∀ side, toInterpreted (Config.decoders lib) side ds = .ok [] := by
  obtain ⟨t, mfg, ds, h, -, h1, h2, h3⟩ := C81_unreachable_violated lib_good lib_enc (R := env) "/etc/fdo/aio" Args.fromCli (show (8082 : Nat) < 65536 by decide) rfl [none, some lo]
    (by
      intro b hb
      simp only [List.mem_cons, Option.some.injEq, List.not_mem_nil, or_false, reduceCtorEq, false_or] at hb
      subst hb
      exact .inl ⟨rfl, .inr (.inl rfl)⟩)
    (fun b hb => read b (by
      simp only [List.mem_cons, Option.some.injEq, List.not_mem_nil, or_false, reduceCtorEq, false_or] at hb ⊢
      exact .inl hb))
  exact ⟨t, mfg, ds, h, h1, h2, h3⟩

/-- A wait of a minute between reports, with the usual margin, keeps the server from starting. -/
example : OwnerServer.startupTimes (some 10) (some 61) = none := by decide

/-- A directory that was configured before is left alone. -/
example : ∃ t, Prog.Ends (generate env.showIp "/etc/fdo/aio" Args.fromCli) t (.err .configured) ∧
    (⟨.exists? "/etc/fdo/aio/aio_configuration", true⟩ : sig.Deed) ∈ t :=
  ⟨[⟨.exists? "/etc/fdo/aio", true⟩, ⟨.exists? "/etc/fdo/aio/aio_configuration", true⟩], .cons (.cons (.nil _)), by simp⟩

/-! ### Starting a server -/

def made : List (String × Settings.Val) := [("bind", .leaf "0.0.0.0:8082"), ("max_wait_seconds", .leaf "60")]

/-- The surroundings of a server that is started so. -/
def sys : Settings.Sys where
  env k := if k = "RENDEZVOUS_SERVER_CONF" then some "/etc/fdo/aio/configs/rendezvous_server.yml" else none
  file p := if p = "/etc/fdo/aio/configs/rendezvous_server.yml" then .holds made else .missing
  glob _ := some []

theorem sys_wf : ∀ p l, sys.file p = .holds l → (Settings.Val.table l).Wf := by
  intro p l h
  dsimp only [sys] at h
  split at h
  · cases h
    simp [made, Settings.Val.Wf, Settings.WfAll]
  · cases h

example : ∃ v, Settings.settingsFor sys "rendezvous-server" = .ok v ∧ v.at ["bind"] = some "0.0.0.0:8082" := by
  obtain ⟨v, h⟩ : ∃ v, Settings.settingsFor sys "rendezvous-server" = .ok v := ⟨_, rfl⟩
  exact ⟨v, h, C81_settings_partial (d := "/etc/fdo/aio") (x := .rendezvous) (l := made) sys_wf (by decide +kernel) (by rfl) (by rfl) h rfl⟩

end Verif.Aio.Toy
