import Verif.Props.StartupMfg
import Verif.Props.MfgExample
/-!
Cases of C96: the manufacturing server of the other examples, started from settings; servers that do not start; one whose key does not
belong to its certificate; one that accepts a key from a storage which is not allowed.
-/
namespace Verif.Startup.MfgToy
open Verif Verif.Settings
open Verif.MfgServer.Toy (env encode all)
open Verif.RvServer.Toy (aead)

/-- Null is written `~`; an array of one element is written in brackets; texts stand for themselves. -/
def S : Reads where
  isNull s := s == "~"
  text := some
  u32 _ := none
  bool s := if s = "true" then some true else if s = "false" then some false else none
  items s := if s = "[FileSystem]" then some [.leaf "FileSystem"] else if s = "[Tpm]" then some [.leaf "Tpm"] else none
  variant names x := match x with
    | .leaf s => if s ∈ names then some s else none
    | .table _ => none

/-- Keys and certificates of the manufacturer (7), the CA (100), the owner (12) and for DIUN (20). -/
def W : MfgWorld env where
  file p :=
    if p = "/7" then some [7] else if p = "/100" then some [100] else if p = "/12" then some [12] else if p = "/20" then some [20]
    else if p = "/empty" then some [] else none
  stackFromPem b := some (b.map fun x => ((x.toNat, x.toNat) : Nat × Nat))
  certFromPem b := b.head?.map fun x => ((x.toNat, x.toNat) : Nat × Nat)
  keyFromDer b := b.head?
  chainPub l := (l : List (Nat × Nat)).head?.map fun x => (UInt8.ofNat x.1)
  rvInfo _ := some ()

def diun (storage : String) : Val := .table [("mfg_string_type", .leaf "SerialNumber"), ("key_type", .leaf "SECP384R1"),
  ("allowed_key_storage_types", .leaf storage), ("key_path", .leaf "/20"), ("cert_path", .leaf "/20")]

def files (cert chain : String) : Val := .table [("manufacturer_cert_path", .leaf cert), ("device_cert_ca_private_key", .leaf "/100"),
  ("device_cert_ca_chain", .leaf chain), ("owner_cert_path", .leaf "/12"), ("manufacturer_private_key", .leaf "/7")]

def whole (protocols manufacturing : Val) : Val := .table [("public_key_store_driver", .leaf "~"), ("protocols", protocols),
  ("rendezvous_info", .leaf "[]"), ("manufacturing", manufacturing)]

def full : Val := whole (.table [("diun", diun "[FileSystem]")]) (files "/7" "/100")

/-- The hypotheses of `C96_files_partial` and `C96_protocols` are met, with the configuration of the other examples as result. -/
theorem full_starts : manufacturing S W true full = .ok MfgServer.Toy.cfg := by rfl

example : Given S.toScalars full "manufacturing" "owner_cert_path" ∧ Given S.toScalars full "protocols" "diun" ∧ ¬ PlainDi S full :=
  ⟨⟨_, rfl, _, rfl, by rintro s ⟨⟩; decide⟩, ⟨_, rfl, _, rfl, by rintro s ⟨⟩⟩, by rintro ⟨s, h, -⟩; cases h⟩

/-- The hypotheses of `C96_admitted_partial` and `C96_owned` are met: with the directory, there is a voucher. -/
example : ∃ n b, Store.Good n ∧ b.length < 2 ^ 63 ∧ MfgServer.DirHolds (MfgServer.reached env true MfgServer.dirM MfgServer.Toy.cfg some aead
    encode (all MfgServer.dirM)).world n b := by
  have hsz : (match (MfgServer.dirM.load 0 (MfgServer.reached env true MfgServer.dirM MfgServer.Toy.cfg some aead encode
      (all MfgServer.dirM)).world (Store.guidText RvServer.Toy.guid)).2 with
    | .ok (some b) => decide (b.length < 2 ^ 63)
    | _ => false) = true := by decide +kernel
  split at hsz
  · rename_i b hb
    exact ⟨_, b, Store.guidText_good _, of_decide_eq_true hsz, MfgServer.dir_sound.held 0 _ _ b hb⟩
  · cases hsz

/-- Plain DI, with a store of public keys. -/
example : ∃ cfg, manufacturing S W true (.table [("public_key_store_driver", .table []), ("protocols", .table [("plain_di", .leaf "true")]),
    ("rendezvous_info", .leaf "[]"), ("manufacturing", files "/7" "/100")]) = .ok cfg ∧ cfg.enableDi = true ∧ cfg.keyStore = true :=
  ⟨_, rfl, rfl, rfl⟩

/-- Configuration files: the second one enables plain DI. -/
def sys : Sys where
  env _ := none
  file p := if p = "/etc/fdo/manufacturing-server.yml" then .holds full.fields else if p = "/etc/fdo/manufacturing-server.conf.d/x.yml" then
    .holds [("protocols", .table [("plain_di", .leaf "true")])] else .missing
  glob _ := some [some "/etc/fdo/manufacturing-server.conf.d/x.yml"]

theorem sys_wf : ∀ p l, sys.file p = .holds l → (Val.table l).Wf := by
  intro p l h
  dsimp only [sys] at h
  split at h
  · cases h
    simp [full, whole, files, diun, Val.fields, Val.Wf, WfAll]
  · split at h
    · cases h
      simp [Val.Wf, WfAll]
    · cases h

/-- The hypotheses of `C96_last_word` are met. -/
example : fromFiles sys "manufacturing-server" (manufacturing S W true) = .ok { MfgServer.Toy.cfg with enableDi := true } := by rfl

/-- The hypotheses of `C96_closed` are met. -/
example : ∃ cfg, manufacturing S W true (whole (.table [("plain_di", .leaf "false"), ("diun", .leaf "~")]) (files "/7" "/100")) = .ok cfg ∧
    ¬ PlainDi S (whole (.table [("plain_di", .leaf "false"), ("diun", .leaf "~")]) (files "/7" "/100")) ∧
    ¬ Given S.toScalars (whole (.table [("plain_di", .leaf "false"), ("diun", .leaf "~")]) (files "/7" "/100")) "protocols" "diun" := by
  refine ⟨_, rfl, ?_, ?_⟩
  · rintro ⟨s, h, -, h'⟩
    cases h
    revert h'
    decide
  · rintro ⟨t, h, x, h', hn⟩
    cases h
    cases h'
    exact absurd (hn "~" rfl) (by decide)

/-- Servers that do not start: a chain without certificates, a key without owner, protocols that are no section, a key type that is not
known, an array where a truth value is expected. -/
example : manufacturing S W true (whole (.table []) (files "/7" "/empty")) = .err .parse := by rfl
example : manufacturing S W true (whole (.table []) (.table [("manufacturer_cert_path", .leaf "/7"),
  ("device_cert_ca_private_key", .leaf "/100"), ("device_cert_ca_chain", .leaf "/100"), ("manufacturer_private_key", .leaf "/7")])) =
  .err .parse := by rfl
example : manufacturing S W true (whole (.leaf "~") (files "/7" "/100")) = .err .type := by rfl
example : manufacturing S W true (whole (.table [("diun", .table [("mfg_string_type", .leaf "SerialNumber"),
  ("key_type", .leaf "RSA2048RESTR")])]) (files "/7" "/100")) = .err .type := by rfl
example : manufacturing S W true (whole (.table [("plain_di", .leaf "[Tpm]")]) (files "/7" "/100")) = .err .type := by rfl

/-- The case of `C96_key_store_violated`: the settings are complete but for the store of public keys. -/
example : manufacturing S W true (.table [("protocols", .table [("diun", diun "[FileSystem]")]), ("rendezvous_info", .leaf "[]"),
    ("manufacturing", files "/7" "/100")]) = .err .missing := C96_key_store_violated rfl

/-! ### A key that does not belong to the certificate -/

def wrong : Val := whole (.table [("diun", diun "[FileSystem]")]) (files "/12" "/100")

def wrongCfg : MfgServer.Config env := { MfgServer.Toy.cfg with mfgCert := ((12 : Nat), (12 : Nat)) }

theorem wrong_starts : manufacturing S W true wrong = .ok wrongCfg := by rfl

theorem wrong_laws : MfgServer.Laws env wrongCfg :=
  let L := MfgServer.Toy.laws
  ⟨L.codec, L.leaf, L.chain_certs, L.built, L.signing, L.payload⟩

/-- **C96** does not say that a server which starts can do its work: one whose key does not belong to its certificate starts (and
here the hypotheses of `C96_mismatch` are met), but never has a voucher, whatever devices do. -/
theorem C96_keys_violated : manufacturing S W true wrong = .ok wrongCfg ∧ ∀ (h : MfgServer.Hist env true MfgServer.dirM wrongCfg
    (some : List Char → Option (List Char)) aead encode), MfgServer.SmallHeaders env true MfgServer.dirM wrongCfg some aead encode h →
    ∀ n b, Store.Good n → b.length < 2 ^ 63 →
      ¬ MfgServer.DirHolds (MfgServer.reached env true MfgServer.dirM wrongCfg some aead encode h).world n b := by
  refine ⟨wrong_starts, fun h hsm n b hn hb => ?_⟩
  refine C96_mismatch (k := (7 : UInt8)) wrong_starts ⟨"/7", "/7", [7], rfl, rfl, by decide, rfl, rfl⟩
    ⟨_, rfl, _, rfl, by rintro s ⟨⟩; decide⟩ ?_ MfgServer.dir_sound wrong_laws h hsm hn hb
  rintro cert o ⟨s, p, b, h1, h2, -, h3, h4⟩ ho
  cases h1
  cases h2
  have h3 : some [(12 : UInt8)] = some b := h3
  cases h3
  have h4 : some (((12 : Nat), (12 : Nat)) : Nat × Nat) = some cert := h4
  cases h4
  have ho : some (12 : UInt8) = some o := ho
  cases ho
  rfl

/-! ### Restrictions which are only told to the device -/

def tpmOnly : Val := whole (.table [("diun", diun "[Tpm]")]) (files "/7" "/100")

/-- **C96** does not hold for the storages that are allowed: the device is told, but what it says is not looked at. A server whose
settings allow keys in a TPM only goes on with a device which says that its key is in a file. -/
theorem C96_storage_violated : ∃ cfg d, manufacturing S W true tpmOnly = .ok cfg ∧ cfg.diun = some d ∧ d.storage = [.tpm] ∧
    ∀ (B : MfgServer.MStore) (o : MfgServer.Oracle env) (der : Bytes) (s : MfgServer.Data env) (k : Option Http.Keys) (w : B.W),
      (MfgServer.handleRes env true B cfg o (.provideKey der .fileSystem) s k w).2 =
        .ok (.diunDone .serialNumber, { s with deviceKey := some der, performed := true }, k) :=
  ⟨_, _, rfl, rfl, rfl, fun _ _ _ _ _ _ => rfl⟩

end Verif.Startup.MfgToy
