import Verif.Model.PerDevice
import Verif.Props.StartupSi
import Verif.Props.Query
/-!
C98: settings for a single device count for it, and for it alone.
-/
namespace Verif.Startup
open Verif Verif.Settings Verif.Store

/-! ### Specification -/

/-- The settings of the server are in order and name a directory for the settings of single devices. -/
structure Keeps (S : Reads) (bind : Val → Bool) (v : Val) (dir : String) : Prop where
  readable : ∃ t x, field v.fields "service_info" = some t ∧ IsTable t ∧ (∀ p ∈ t.fields, p.1 ∈ ["initial_user", "files", "commands",
    "diskencryption_clevis", "additional_serviceinfo", "after_onboarding_reboot"]) ∧ Says S t x
  bind : ∃ x, field v.fields "bind" = some x ∧ bind x = true
  tokens : ∀ n ∈ ["service_info_auth_token", "admin_auth_token"], ∃ t, May S v n (IsText S) t
  store : ∃ k t s, field v.fields "device_specific_store_driver" = some (.table [(k, t)]) ∧
    S.variant ["Directory", "Sqlite", "Postgres"] (.leaf k) = some "Directory" ∧ t.at ["path"] = some s ∧ S.text s = some dir

/-- A path for the settings of a device: its GUID, in the directory. -/
def PathFor (dir : String) (guid : Bytes) (p : String) : Prop :=
  ∃ sep, p.toList = dir.toList ++ sep ++ guidText guid ++ ".yml".toList ∧
    (sep = [] ∧ (dir = "" ∨ ∃ d, dir.toList = d ++ ['/']) ∨ sep = ['/'] ∧ dir ≠ "" ∧ ¬ ∃ d, dir.toList = d ++ ['/'])

/-! ### Proofs -/

mutual
theorem setV_self (acc : List (String × Val)) (k : String) (hk : k ∉ acc.map (·.1)) : ∀ (v : Val), v.Wf →
    setV (.table acc) k v = .table (acc ++ [(k, v)])
  | .leaf s, _ => by
    unfold setV
    rw [Val.fields, put_new hk]
  | .table l, h => by
    unfold setV
    rw [Val.fields, field_none hk, Option.getD_none, setAll_self [] l (by simpa using h.1) h.2, put_new hk]
    rfl

theorem setAll_self (acc : List (String × Val)) : ∀ (l : List (String × Val)), ((acc ++ l).map (·.1)).Nodup → WfAll l →
    setAll (.table acc) l = .table (acc ++ l)
  | [], _, _ => by
    unfold setAll
    rw [List.append_nil]
  | (k, v) :: r, hn, hw => by
    unfold setAll
    have hk : k ∉ acc.map (·.1) := by
      rw [List.map_append, List.map_cons, List.nodup_append] at hn
      exact fun h => hn.2.2 _ h _ (by simp) rfl
    rw [setV_self acc k hk v hw.1, setAll_self (acc ++ [(k, v)]) r (by simpa using hn) hw.2, List.append_assoc]
    rfl

theorem put_new {l : List (String × Val)} {k : String} (h : k ∉ l.map (·.1)) {x : Val} : put l k x = l ++ [(k, x)] := by
  induction l with
  | nil => rfl
  | cons a l ih =>
    obtain ⟨k', v⟩ := a
    rw [List.map_cons, List.mem_cons, not_or] at h
    rw [put, if_neg (fun e => h.1 e.symm), ih h.2]
    rfl
end

theorem devicePath_for (dir : String) (guid : Bytes) : PathFor dir guid (devicePath dir guid) := by
  unfold PathFor devicePath
  rw [String.toList_ofList]
  by_cases h1 : dir.toList = []
  · refine ⟨[], by simp [h1], .inl ⟨rfl, .inl ?_⟩⟩
    exact String.toList_inj.1 h1
  · by_cases h2 : dir.toList.getLast? = some '/'
    · refine ⟨[], by simp [h2], .inl ⟨rfl, .inr ?_⟩⟩
      exact ⟨_, (List.getLast?_eq_some_iff.1 h2).choose_spec⟩
    · refine ⟨['/'], by simp [h1, h2], .inr ⟨rfl, fun h => h1 (by rw [h]; rfl), ?_⟩⟩
      rintro ⟨d, hd⟩
      exact h2 (by rw [hd]; simp)

theorem pathFor_unique {dir : String} {guid : Bytes} {p q : String} (hp : PathFor dir guid p) (hq : PathFor dir guid q) : p = q := by
  obtain ⟨a, h1, h2⟩ := hp
  obtain ⟨b, g1, g2⟩ := hq
  have : a = b := by
    rcases h2 with ⟨rfl, h⟩ | ⟨rfl, h, h'⟩ <;> rcases g2 with ⟨rfl, g⟩ | ⟨rfl, g, g'⟩
    · rfl
    · rcases h with h | h
      · exact absurd h g
      · exact absurd h g'
    · rcases g with g | g
      · exact absurd g h
      · exact absurd g h'
    · rfl
  subst this
  exact String.toList_inj.1 (h1.trans g1.symm)

theorem guidText_inj {g g' : Bytes} (hg : g.length = 16) (hg' : g'.length = 16) (h : guidText g = guidText g') : g = g' := by
  have h1 := RvServer.parseGuid_of hg
  rw [h, RvServer.parseGuid_of hg'] at h1
  exact (Option.some.inj h1).symm

/-- Different devices have different paths. -/
theorem pathFor_inj {dir : String} {g g' : Bytes} (hg : g.length = 16) (hg' : g'.length = 16) {p : String} (h : PathFor dir g p)
    (h' : PathFor dir g' p) : g = g' := by
  obtain ⟨a, h1, h2⟩ := h
  obtain ⟨b, g1, g2⟩ := h'
  have : a = b := by
    rcases h2 with ⟨rfl, h⟩ | ⟨rfl, h, h'⟩ <;> rcases g2 with ⟨rfl, g⟩ | ⟨rfl, g, g'⟩
    · rfl
    · rcases h with h | h
      · exact absurd h g
      · exact absurd h g'
    · rcases g with g | g
      · exact absurd g h
      · exact absurd g h'
    · rfl
  subst this
  rw [h1] at g1
  exact guidText_inj hg hg' (List.append_cancel_left (List.append_cancel_right g1))

section
variable {S : Reads} {bind : Val → Bool} {v : Val} {dir : String}

theorem all_known {t : Val} (h : ∀ p ∈ t.fields, p.1 ∈ ["initial_user", "files", "commands", "diskencryption_clevis",
    "additional_serviceinfo", "after_onboarding_reboot"]) : t.fields.all (fun p => siNames.contains p.1) = true :=
  List.all_eq_true.2 fun p hp => List.contains_iff_mem.2 (h p hp)

theorem storeSetting_of (h : Keeps S bind v dir) : storeSetting S bind v = .ok (.directory dir) := by
  obtain ⟨t, x, h1, h2, h3, h4⟩ := h.readable
  obtain ⟨b, hb, hb'⟩ := h.bind
  obtain ⟨t1, ht1⟩ := h.tokens "service_info_auth_token" (by simp)
  obtain ⟨t2, ht2⟩ := h.tokens "admin_auth_token" (by simp)
  obtain ⟨k, w, s, g1, g2, g3, g4⟩ := h.store
  refine Res.bind_eq_ok.2 ⟨x, ?_, Res.bind_eq_ok.2 ⟨(), ?_, Res.bind_eq_ok.2 ⟨_, (optional_iff fun _ _ => textOf_iff).2 ht1,
    Res.bind_eq_ok.2 ⟨_, (optional_iff fun _ _ => textOf_iff).2 ht2, ?_⟩⟩⟩⟩
  · unfold required
    rw [h1]
    refine structOf_iff.2 ⟨h2, ?_⟩
    unfold onlyFields
    rw [if_pos (all_known h3)]
    exact siSettingsOf_iff.2 h4
  · unfold required
    rw [hb]
    simp only [hb', if_true]
  · unfold required
    rw [g1]
    simp only [storeOf, g2, if_true]
    rw [at_fields] at g3
    split at g3
    · rename_i z hz
      cases z with
      | table l => cases g3
      | leaf s' =>
        cases g3
        refine Res.bind_eq_ok.2 ⟨dir.toList, (required_iff fun _ _ => textOf_iff).2 ⟨_, hz, s, dir, rfl, g4, rfl⟩, ?_⟩
        rw [String.ofList_toList]
        rfl
    · cases g3

/-- What counts for a device depends on the file for it alone. -/
theorem perDevice_eq {y : Sys} (hv : settingsFor y "serviceinfo-api-server" = .ok v) (h : Keeps S bind v dir) (guid : Bytes) :
    perDevice S y bind guid = match y.file (devicePath dir guid) with
      | .holds l => (match onlyFields siNames (siSettingsOf S) (setAll (.table []) l) with
        | .ok x => some x.user
        | _ => none)
      | _ => none := by
  unfold perDevice settingsPerDevice
  rw [hv]
  simp only [storeSetting_of h]
  show (match (match collectAll y true (.table []) [devicePath dir guid] with
    | .err e => Res.err (Fail.settings e)
    | .panic => .panic
    | .ok w => onlyFields siNames (siSettingsOf S) w) with
    | .ok x => some x.user
    | _ => none) = _
  simp only [collectAll, collect]
  cases y.file (devicePath dir guid) <;> rfl

/-- **C98**, the file for a device counts: if it can be read, the device gets the initial user in it, or none if there is none in it. -/
theorem C98_own_partial {y : Sys} (hv : settingsFor y "serviceinfo-api-server" = .ok v) (h : Keeps S bind v dir) {guid : Bytes} {p : String}
    (hp : PathFor dir guid p) {l : List (String × Val)} (hl : y.file p = .holds l) (hw : (Val.table l).Wf)
    (hn : ∀ q ∈ l, q.1 ∈ ["initial_user", "files", "commands", "diskencryption_clevis", "additional_serviceinfo",
      "after_onboarding_reboot"]) {x : SiApi.Settings} (hx : Says S (.table l) x) : perDevice S y bind guid = some x.user := by
  rw [perDevice_eq hv h, ← pathFor_unique hp (devicePath_for dir guid), hl]
  simp only
  rw [setAll_self [] l (by simpa using hw.1) hw.2]
  unfold onlyFields
  rw [List.nil_append, if_pos (all_known (t := .table l) hn), siSettingsOf_iff.2 hx]

/-- **C98**, devices without a file: there are no settings for them, so that the general ones count. -/
theorem C98_default {y : Sys} (hv : settingsFor y "serviceinfo-api-server" = .ok v) (h : Keeps S bind v dir) {guid : Bytes} {p : String}
    (hp : PathFor dir guid p) (hl : y.file p = .missing) : perDevice S y bind guid = none := by
  rw [perDevice_eq hv h, ← pathFor_unique hp (devicePath_for dir guid), hl]

/-- **C98**, files for other devices do not count: whatever becomes of them, provided the settings of the server stay. -/
theorem C98_others {y y' : Sys} (hv : settingsFor y "serviceinfo-api-server" = .ok v) (hv' : settingsFor y' "serviceinfo-api-server" = .ok v)
    (h : Keeps S bind v dir) {guid guid' : Bytes} (hg : guid.length = 16) (hg' : guid'.length = 16) (hne : guid ≠ guid') {p' : String}
    (hp : PathFor dir guid' p') (hsame : ∀ p, p ≠ p' → y'.file p = y.file p) : perDevice S y' bind guid = perDevice S y bind guid := by
  rw [perDevice_eq hv h, perDevice_eq hv' h, hsame _ fun e => hne (pathFor_inj hg hg' (e ▸ devicePath_for dir guid) hp)]

/-- **C98** is violated: a file for a device that is there but cannot be read is overlooked, so that the general user is made on the device
instead of the one for it. By the documentation (HOWTO.md:967-968), this is for devices without a file. -/
theorem C98_malformed_violated {y : Sys} (hv : settingsFor y "serviceinfo-api-server" = .ok v) (h : Keeps S bind v dir) {guid : Bytes}
    {p : String} (hp : PathFor dir guid p) (hl : y.file p = .malformed ∨ ∃ l n w, y.file p = .holds l ∧ (Val.table l).Wf ∧ (n, w) ∈ l ∧
      n ∉ ["initial_user", "files", "commands", "diskencryption_clevis", "additional_serviceinfo", "after_onboarding_reboot"]) :
    perDevice S y bind guid = none := by
  rw [perDevice_eq hv h, ← pathFor_unique hp (devicePath_for dir guid)]
  rcases hl with hl | ⟨l, n, w, hl, hw, hm, hn⟩
  · rw [hl]
  · rw [hl]
    simp only
    rw [setAll_self [] l (by simpa using hw.1) hw.2]
    unfold onlyFields
    rw [List.nil_append]
    split
    · rename_i x hx
      split at hx
      · rename_i he
        exact absurd (List.contains_iff_mem.1 (List.all_eq_true.1 he _ hm)) hn
      · cases hx
    · rfl

/-- **C98** through to the reply: the server that was started from the settings, after any requests, is asked for a device with a readable
file of its own. The initial user in the reply is the one in that file. -/
theorem C98_reply_partial {W : SiWorld} {rest : Bool} {stored : List SiApi.AdminRequest} {s : SiApi.Server} {y : Sys}
    (hs : fromFiles y "serviceinfo-api-server" (serviceInfo S W rest stored) = .ok s) (l : List (SiApi.Oracle × SiApi.Request))
    (hv : settingsFor y "serviceinfo-api-server" = .ok v) (h : Keeps S bind v dir) {o : SiApi.Oracle} (ho : o.perDevice = perDevice S y bind)
    (hun : SiPipeline.Unescapes o.unescape) {guid : Bytes} (hg : guid.length = 16) {token : Option (List Char)} {modules : List (List Char)}
    {r : ServiceInfo.ApiReply} (hr : Url.ask o (SiApi.steps s l) token (ServiceInfo.apiQuery (guidText guid) modules) = some r)
    {p : String} (hp : PathFor dir guid p) :
    ∃ ms : List Types.SiModule,
      (∀ fs x, y.file p = .holds fs → (Val.table fs).Wf → (∀ q ∈ fs, q.1 ∈ ["initial_user", "files", "commands", "diskencryption_clevis",
        "additional_serviceinfo", "after_onboarding_reboot"]) → Says S (.table fs) x →
        r.user = if Types.SiModule.sshKey ∈ ms then x.user else none) ∧
      (y.file p = .missing → ∃ t x, field v.fields "service_info" = some t ∧ Says S t x ∧
        r.user = if Types.SiModule.sshKey ∈ ms then x.user else none) := by
  obtain ⟨ms, -, hu⟩ := Url.C92_reply hun hg modules hr
  refine ⟨ms, fun fs x h1 h2 h3 h4 => ?_, fun h1 => ?_⟩
  · rw [hu, ho, C98_own_partial hv h hp h1 h2 h3 h4]
    rfl
  · unfold fromFiles at hs
    rw [hv] at hs
    obtain ⟨t, x, g1, g2, g3, -⟩ := C97_settings_partial hs
    refine ⟨t, x, g1, g2, ?_⟩
    rw [hu, ho, C98_default hv h hp h1, (steps_kept s l).1]
    have : s.config.user = x.user := by
      unfold SiApi.fromSettings at g3
      split at g3
      · rw [← Option.some.inj g3]
      · obtain ⟨a, -, g3⟩ := Option.map_eq_some_iff.1 g3
        rw [← g3]
    rw [this]
    rfl

end

/-- **C98** is violated: of the settings for a device, only the initial user counts. Whatever they say about files, commands, disks and
reboot, these parts of the reply stay the same. -/
theorem C98_only_user_violated (c : SiApi.Config) (a b : Option (Option ServiceInfo.InitialUser)) (q : SiApi.Query) (r r' : ServiceInfo.ApiReply)
    (h : SiApi.handler c a q = some r) (h' : SiApi.handler c b q = some r') : r.extra = r'.extra ∧ r.reboot = r'.reboot := by
  unfold SiApi.handler at h h'
  split at h
  · cases h
  · rename_i hv
    rw [if_neg hv] at h'
    simp only [Option.some.injEq] at h h'
    rw [← h, ← h']
    exact ⟨rfl, rfl⟩

end Verif.Startup
