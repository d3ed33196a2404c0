import Verif.Lemmas.SiPipeline
/-!
From the settings of the service info server, over the owner onboarding server, to a device: files and commands (C53).
-/
namespace Verif.SiPipeline
open Verif Verif.Types Verif.ServiceInfo Verif.Store

/-- The instructions for a device, as made by the owner server `token` from the reply of the service info server. -/
def sent (o : SiApi.Oracle) (s : SiApi.Server) (token : Option (List Char)) (guid : Bytes) (mods : List SiModule) : Option (List Item) :=
  (SiApi.answer o s token (apiQuery (guidText guid) (mods.map SiModule.display).eraseDups)).bind replyItems

/-- The device `h`, having the modules `mods`, announces them in its first message; the owner server asks the service info
server, which has read the settings with `read`, and answers with `m`. The values that are sent arrive. -/
structure Setup (h : SiClient.Host) (enc : Val → Bytes) (dec : Bytes → Option Val) (read : List Char → Option Bytes)
    (settings : SiApi.Settings) (o : SiApi.Oracle) (s : SiApi.Server) (token : Option (List Char)) (guid : Bytes)
    (mods : List SiModule) (version : List Char) (m : OwnerSi) : Prop where
  config : SiApi.fromSettings read (h.digest .sha384) settings = some s.config
  unescapes : Unescapes o.unescape
  sixteen : guid.length = 16
  known : ∀ x ∈ mods, x.known
  announced : Reads enc dec (SiClient.devmod h version mods)
  answered : perform enc dec (SiApi.answer o s token) (guidText guid) (toSi enc (SiClient.devmod h version mods)) 0 = some m
  arrives : ∀ l, sent o s token guid mods = some l → Reads enc dec l

theorem allStrings_text (l : List (List Char)) : allStrings (l.map .text) = some l := by
  induction l with
  | nil => rfl
  | cons s l ih =>
    rw [List.map_cons, allStrings, ih]
    rfl

theorem moduleList_devmod {h : SiClient.Host} {enc : Val → Bytes} {dec : Bytes → Option Val} {version : List Char}
    {mods : List SiModule} (hr : Reads enc dec (SiClient.devmod h version mods)) :
    moduleList dec (toSi enc (SiClient.devmod h version mods)) = some (mods.map SiModule.display).eraseDups := by
  unfold moduleList
  rw [toSi_items hr (fun x hx => ?_)]
  · have e : modulesOf (.array (.int 0 :: .int mods.length :: mods.map fun m => .text m.display)) =
        some (mods.map SiModule.display).eraseDups := by
      show (allStrings (mods.map fun m => .text m.display)).map List.eraseDups = _
      rw [show (mods.map fun m => Val.text m.display) = (mods.map SiModule.display).map .text by
        rw [List.map_map]; rfl, allStrings_text]
      rfl
    simp only [SiClient.devmod, moduleLoop, e,
      if_neg (show ¬(SiModule.devMod = .devMod ∧ "active".toList = "modules".toList) by decide),
      if_neg (show ¬(SiModule.devMod = .devMod ∧ "os".toList = "modules".toList) by decide),
      if_neg (show ¬(SiModule.devMod = .devMod ∧ "arch".toList = "modules".toList) by decide),
      if_neg (show ¬(SiModule.devMod = .devMod ∧ "version".toList = "modules".toList) by decide),
      if_neg (show ¬(SiModule.devMod = .devMod ∧ "device".toList = "modules".toList) by decide),
      if_neg (show ¬(SiModule.devMod = .devMod ∧ "sep".toList = "modules".toList) by decide),
      if_neg (show ¬(SiModule.devMod = .devMod ∧ "bin".toList = "modules".toList) by decide),
      if_neg (show ¬(SiModule.devMod = .devMod ∧ "nummodules".toList = "modules".toList) by decide)]
    rfl
  · simp only [SiClient.devmod, List.mem_cons, List.not_mem_nil, or_false] at hx
    have : x.1 = .devMod := by
      rcases hx with rfl | rfl | rfl | rfl | rfl | rfl | rfl | rfl | rfl <;> rfl
    rw [this]
    exact plain_of_known (by intro s h; cases h)

theorem hexDigit_quiet {b : Bytes} {ch : Char} (h : ch ∈ hexEncode b) : ch ≠ '&' ∧ ch ≠ '%' ∧ ch ≠ '+' := by
  have hd : ∀ n, n < 16 → hexDigit n ≠ '&' ∧ hexDigit n ≠ '%' ∧ hexDigit n ≠ '+' := by decide
  induction b with
  | nil => cases h
  | cons x r ih =>
    simp only [hexEncode, List.mem_cons] at h
    rcases h with rfl | rfl | h
    · exact hd _ (by have := x.toNat_lt; omega)
    · exact hd _ (by omega)
    · exact ih h

theorem guidText_quiet (g : Bytes) : Quiet (guidText g) := by
  intro ch h
  unfold guidText at h
  simp only [List.mem_append, List.mem_singleton] at h
  have d : ∀ c, c = '-' → c ≠ '&' ∧ c ≠ '%' ∧ c ≠ '+' := by
    rintro c rfl
    decide
  rcases h with ((((((((h | h) | h) | h) | h) | h) | h) | h) | h)
  · exact hexDigit_quiet (List.mem_of_mem_take h)
  · exact d _ h
  · exact hexDigit_quiet (List.mem_of_mem_drop (List.mem_of_mem_take h))
  · exact d _ h
  · exact hexDigit_quiet (List.mem_of_mem_drop (List.mem_of_mem_take h))
  · exact d _ h
  · exact hexDigit_quiet (List.mem_of_mem_drop (List.mem_of_mem_take h))
  · exact d _ h
  · exact hexDigit_quiet (List.mem_of_mem_drop h)

theorem name_quiet {m : SiModule} (hm : m.known) : ',' ∉ m.display ∧ Quiet m.display := by
  unfold Quiet
  cases m with
  | unsupported s => exact absurd rfl (hm s)
  | _ => exact ⟨by decide, by decide⟩

/-- What the service info server makes of the query. -/
theorem query_parsed {un : List Char → List Char} {guid : Bytes} {mods : List SiModule} (hun : Unescapes un)
    (hg : guid.length = 16) (hk : ∀ x ∈ mods, x.known) : ∃ ms,
    SiApi.parseQuery un (apiQuery (guidText guid) (mods.map SiModule.display).eraseDups) = some ⟨1, guid, ms⟩ ∧
    (∀ x, x.known → (x ∈ ms ↔ x ∈ mods)) ∧ ∀ x ∈ ms, x.plain := by
  have hmem : ∀ s ∈ (mods.map SiModule.display).eraseDups, ∃ x ∈ mods, s = x.display := by
    intro s hs
    rw [List.mem_eraseDups] at hs
    obtain ⟨x, hx, rfl⟩ := List.mem_map.1 hs
    exact ⟨x, hx, rfl⟩
  have hq : Quiet (joinWith [','] (mods.map SiModule.display).eraseDups) := by
    intro ch hch
    rcases joinWith_mem hch with h | ⟨s, hs, h⟩
    · simp only [List.mem_singleton] at h
      rw [h]
      decide
    · obtain ⟨x, hx, rfl⟩ := hmem s hs
      exact (name_quiet (hk x hx)).2 ch h
  refine ⟨_, parseQuery_api hun (RvServer.parseGuid_of hg) (guidText_quiet guid) hq, fun x hx => ?_, fun x hx => ?_⟩
  · cases mods with
    | nil =>
      have : (Text.splitAll ',' (joinWith [','] (([] : List SiModule).map SiModule.display).eraseDups)).map SiModule.fromStr =
          [.unsupported []] := by decide
      rw [this]
      simp only [List.mem_singleton, List.not_mem_nil, iff_false]
      exact hx _
    | cons y mods =>
      have hne : ((y :: mods).map SiModule.display).eraseDups ≠ [] := by
        intro h
        have : y.display ∈ ((y :: mods).map SiModule.display).eraseDups := by
          rw [List.mem_eraseDups]
          simp
        rw [h] at this
        cases this
      rw [splitAll_join hne fun s hs => ?_, List.mem_map]
      · constructor
        · rintro ⟨s, hs, rfl⟩
          obtain ⟨z, hz, rfl⟩ := hmem s hs
          rw [(plain_of_known (hk z hz)).1]
          exact hz
        · intro h
          refine ⟨x.display, ?_, (plain_of_known hx).1⟩
          rw [List.mem_eraseDups]
          exact List.mem_map_of_mem h
      · obtain ⟨z, hz, rfl⟩ := hmem s hs
        exact (name_quiet (hk z hz)).1
  · by_cases hne : mods = []
    · subst hne
      have : (Text.splitAll ',' (joinWith [','] (([] : List SiModule).map SiModule.display).eraseDups)).map SiModule.fromStr =
          [.unsupported []] := by decide
      rw [this, List.mem_singleton] at hx
      rw [hx]
      exact ⟨by decide, by decide⟩
    · have hne' : (mods.map SiModule.display).eraseDups ≠ [] := by
        intro h
        obtain ⟨y, hy⟩ := List.exists_mem_of_ne_nil _ hne
        have : y.display ∈ (mods.map SiModule.display).eraseDups := by
          rw [List.mem_eraseDups]
          exact List.mem_map_of_mem hy
        rw [h] at this
        cases this
      rw [splitAll_join hne' fun s hs => ?_] at hx
      · obtain ⟨s, hs, rfl⟩ := List.mem_map.1 hx
        obtain ⟨z, hz, rfl⟩ := hmem s hs
        rw [(plain_of_known (hk z hz)).1]
        exact plain_of_known (hk z hz)
      · obtain ⟨z, hz, rfl⟩ := hmem s hs
        exact (name_quiet (hk z hz)).1

section
variable {h : SiClient.Host} {enc : Val → Bytes} {dec : Bytes → Option Val} {read : List Char → Option Bytes}
  {settings : SiApi.Settings} {o : SiApi.Oracle} {s : SiApi.Server} {token : Option (List Char)} {guid : Bytes}
  {mods : List SiModule} {version : List Char} {m : OwnerSi}

theorem answer_some {q : List Char} {r : ApiReply} (ha : SiApi.answer o s token q = some r) :
    ∃ query, SiApi.parseQuery o.unescape q = some query ∧ SiApi.handler s.config (o.perDevice query.guid) query = some r := by
  unfold SiApi.answer at ha
  split at ha
  · next r' hr =>
    cases ha
    simp only [SiApi.ownerRequest, SiApi.step, if_true, SiApi.deviceInfo] at hr
    split at hr
    · cases hr
    · split at hr
      · split at hr
        · cases hr
        · next query hq =>
          split at hr
          · cases hr
          · next x hx =>
            cases hr
            exact ⟨query, hq, hx⟩
      · cases hr
  · cases ha

theorem replyItems_some {r : ApiReply} {l : List Item} (hl : replyItems r = some l) : ∃ l',
    l = (r.user.map userItems).getD [] ++ l' ++ (r.reboot.map rebootItems).getD [] ∧ extraItems (r.extra.getD []) = some l' := by
  unfold replyItems at hl
  split at hl
  · cases hl
  · next l' hl' =>
    cases hl
    refine ⟨l', ?_, hl'⟩
    cases r.user <;> cases r.reboot <;> rfl

theorem userPart_module {u : Option InitialUser} : ∀ y ∈ (u.map userItems).getD [], y.1 = .sshKey := by
  intro y hy
  cases u with
  | none => cases hy
  | some u =>
    have hy : y ∈ userItems u := hy
    simp only [userItems, List.mem_append, List.mem_cons, List.not_mem_nil, or_false] at hy
    rcases hy with ((rfl | rfl) | hx) | hx
    · rfl
    · rfl
    · split at hx
      · simp only [List.mem_singleton] at hx; rw [hx]
      · cases hx
    · split at hx
      · simp only [List.mem_singleton] at hx; rw [hx]
      · cases hx

theorem rebootPart_module {u : Option Bool} : ∀ y ∈ (u.map rebootItems).getD [], y.1 = .reboot := by
  intro y hy
  cases u with
  | none => cases hy
  | some u =>
    have hy : y ∈ rebootItems u := hy
    simp only [rebootItems, List.mem_cons, List.not_mem_nil, or_false] at hy
    rcases hy with rfl | rfl <;> rfl

/-- What arrives at the device. -/
theorem setup_items (hS : Setup h enc dec read settings o s token guid mods version m) : ∃ r l ms,
    siItems dec m.si = l ∧ replyItems r = some l ∧ SiApi.handler s.config (o.perDevice guid) ⟨1, guid, ms⟩ = some r ∧
    sent o s token guid mods = some l ∧ (∀ x, x.known → (x ∈ ms ↔ x ∈ mods)) := by
  have ha := hS.answered
  unfold perform at ha
  rw [if_neg (by simp), moduleList_devmod hS.announced] at ha
  simp only at ha
  obtain ⟨ms, hq, hms, hms'⟩ := query_parsed hS.unescapes hS.sixteen hS.known
  split at ha
  · cases ha
  · next r hr =>
    cases hl : replyItems r with
    | none => rw [hl] at ha; cases ha
    | some l =>
      rw [hl] at ha
      have hm : m = ⟨false, false, toSi enc l⟩ := (Option.some.inj ha).symm
      obtain ⟨query, hq', hx⟩ := answer_some hr
      rw [hq] at hq'
      cases hq'
      have hsent : sent o s token guid mods = some l := by
        unfold sent
        rw [hr]
        exact hl
      refine ⟨r, l, ms, ?_, hl, hx, hsent, hms⟩
      rw [hm]
      refine toSi_items (hS.arrives l hsent) ?_
      -- all modules are known
      have hreq : ∀ x ∈ r.extra.getD [], x.1.plain := by
        unfold SiApi.handler at hx
        rw [if_neg (by simp)] at hx
        simp only [Option.some.injEq] at hx
        rw [← hx]
        intro x hx
        exact hms' _ ((within_additional (within_part (within_part (within_part
          (q := ⟨1, guid, ms⟩) (b := {}) (by intro y hy; cases hy)))) : Within _ _) x hx)
      obtain ⟨l', rfl, hl'⟩ := replyItems_some hl
      intro x hx
      rcases List.mem_append.1 hx with hx | hx
      · rcases List.mem_append.1 hx with hx | hx
        · rw [userPart_module x hx]
          exact plain_of_known (by intro s hs; cases hs)
        · exact extraItems_modules (P := SiModule.plain) hl' hreq x hx
      · rw [rebootPart_module x hx]
        exact plain_of_known (by intro s hs; cases hs)

/-! ### The part of the instructions for a module -/

/-- What the extra commands of a reply hold for a module. -/
theorem handler_holds {c : SiApi.Config} {pd : Option (Option InitialUser)} {q : SiApi.Query} {r : ApiReply}
    (hx : SiApi.handler c pd q = some r) (x : SiModule) (hadd : ∀ y ∈ c.additional.getD [], y.1 ≠ x) : ∃ b : SiApi.Builder,
    r.extra = b.extra ∧
    (x = .binaryFile → Holds x b (if .binaryFile ∈ q.modules then (c.files.getD []).flatMap SiApi.fileExtras else [])) ∧
    (x = .command → Holds x b (if .command ∈ q.modules then (c.commands.getD []).flatMap SiApi.commandExtras else [])) ∧
    (x = .diskEncryptionClevis →
      Holds x b (if .diskEncryptionClevis ∈ q.modules then (c.disks.getD []).flatMap SiApi.diskExtras else [])) := by
  unfold SiApi.handler at hx
  split at hx
  · cases hx
  · simp only [Option.some.injEq] at hx
    have hmap : ∀ {α β : Type} (l : Option (List α)) (f : α → List β), ((l.map (·.map f)).getD []).flatten = (l.getD []).flatMap f := by
      intro α β l f
      cases l with
      | none => rfl
      | some l => rfl
    refine ⟨_, by rw [← hx], ?_, ?_, ?_⟩
    · rintro rfl
      refine holds_additional (holds_part_other (holds_part_other ?_ (.inl (by decide))) (.inl (by decide))) hadd
      split
      · next hm =>
        have := holds_part (x := c.files.map (·.map SiApi.fileExtras)) (holds_empty .binaryFile) hm
        rwa [List.nil_append, hmap] at this
      · next hm => exact holds_part_other (holds_empty _) (.inr hm)
    · rintro rfl
      refine holds_additional (holds_part_other ?_ (.inl (by decide))) hadd
      have h0 : Holds .command (SiApi.part q .binaryFile (c.files.map (·.map SiApi.fileExtras)) {}) [] :=
        holds_part_other (holds_empty _) (.inl (by decide))
      split
      · next hm =>
        have := holds_part (x := c.commands.map (·.map SiApi.commandExtras)) h0 hm
        rwa [List.nil_append, hmap] at this
      · next hm => exact holds_part_other h0 (.inr hm)
    · rintro rfl
      refine holds_additional ?_ hadd
      have h0 : Holds .diskEncryptionClevis (SiApi.part q .command (c.commands.map (·.map SiApi.commandExtras))
          (SiApi.part q .binaryFile (c.files.map (·.map SiApi.fileExtras)) {})) [] :=
        holds_part_other (holds_part_other (holds_empty _) (.inl (by decide))) (.inl (by decide))
      split
      · next hm =>
        have := holds_part (x := c.disks.map (·.map SiApi.diskExtras)) h0 hm
        rwa [List.nil_append, hmap] at this
      · next hm => exact holds_part_other h0 (.inr hm)

theorem toModule_ofModule (x : SiModule) (l : List Item) :
    SiClient.toModule x l = (ofModule x l).filter fun y => y.2.1 ≠ "active".toList := by
  unfold SiClient.toModule ofModule
  rw [List.filter_filter]
  congr 1
  funext y
  rw [Bool.decide_and, Bool.and_comm]

theorem tagged_flatMap {α : Type} (x : SiModule) (l : List α) (f : α → List (List Char × Val)) :
    tagged x (l.flatMap f) = l.flatMap fun a => tagged x (f a) := by
  unfold tagged
  rw [List.map_flatMap]

/-- The instructions to a module come from its extra commands. -/
theorem toModule_items {α : Type} {x : SiModule} (hx : x ≠ .sshKey ∧ x ≠ .reboot) {r : ApiReply} {l : List Item}
    (hl : replyItems r = some l) {b : SiApi.Builder} (hb : r.extra = b.extra) {as : List α} {f : α → List (List Char × Val)}
    {g : α → List Item} (hh : Holds x b (as.flatMap f)) (hfg : ∀ a ∈ as, extraItems (tagged x (f a)) = some (g a))
    (hg : ∀ a, ∀ y ∈ g a, y.2.1 ≠ "active".toList) : SiClient.toModule x l = as.flatMap g := by
  obtain ⟨l', rfl, hl'⟩ := replyItems_some hl
  have hu : ofModule x ((r.user.map userItems).getD []) = [] := by
    unfold ofModule
    rw [List.filter_eq_nil_iff]
    intro y hy
    have := userPart_module y hy
    simpa [this] using fun h => hx.1 h.symm
  have hr : ofModule x ((r.reboot.map rebootItems).getD []) = [] := by
    unfold ofModule
    rw [List.filter_eq_nil_iff]
    intro y hy
    have := rebootPart_module y hy
    simpa [this] using fun h => hx.2 h.symm
  rw [toModule_ofModule, ofModule_append, ofModule_append, hu, hr, List.nil_append, List.append_nil]
  have he := extraItems_module (m := x) hl'
  rw [hb, hh.items] at he
  split at he
  · next hnil =>
    have : as.flatMap g = [] := by
      have := extraItems_flatMap hfg
      rw [← tagged_flatMap, hnil] at this
      exact (Option.some.inj this).symm
    rw [this, ← Option.some.inj he]
    rfl
  · have : extraItems (((x, "active".toList, Val.bool true) : Item) :: tagged x (as.flatMap f)) =
        some ((x, "active".toList, .bool true) :: as.flatMap g) := by
      rw [tagged_flatMap]
      exact extraItems_append (a := [_]) (a' := [_]) (by rfl) (extraItems_flatMap hfg)
    rw [this] at he
    rw [← Option.some.inj he, List.filter_cons, if_neg (by simp), List.filter_eq_self]
    intro y hy
    obtain ⟨a, _, ha⟩ := List.mem_flatMap.1 hy
    simpa using hg a y ha

/-! ### C53, files -/

/-- Octal digits. -/
def octalDigit (d : Nat) : Char := Char.ofNat (48 + d)

/-- Specification: the text is the octal form of the number, perhaps with a plus sign. -/
def OctalOf (p : List Char) (n : Nat) : Prop :=
  ∃ ds : List Nat, ds ≠ [] ∧ (∀ d ∈ ds, d < 8) ∧ (p = ds.map octalDigit ∨ p = '+' :: ds.map octalDigit) ∧
    n = ds.foldl (fun n d => 8 * n + d) 0

/-- Specification: a file on the device as in the settings: its path, the contents of the source, and the mode, which is
0600 unless given. -/
structure Configured (read : List Char → Option Bytes) (f : SiApi.FileSetting) (g : SiClient.File) : Prop where
  path : g.path = f.path
  contents : read f.source = some g.contents
  mode : (f.permissions = none ∧ g.mode = 0o600) ∨ ∃ p, f.permissions = some p ∧ OctalOf p g.mode

theorem parseOctal_some {p : List Char} {n : Nat} (hp : SiApi.parseOctal p = some n) : OctalOf p n ∧ n < 2 ^ 32 := by
  have key : ∀ digits : List Char, (digits.isEmpty || !digits.all (fun ch => 48 ≤ ch.toNat && ch.toNat ≤ 55)) = false →
      ∃ ds : List Nat, ds ≠ [] ∧ (∀ d ∈ ds, d < 8) ∧ digits = ds.map octalDigit ∧
        digits.foldl (fun n ch => 8 * n + (ch.toNat - 48)) 0 = ds.foldl (fun n d => 8 * n + d) 0 := by
    intro digits hd
    simp only [Bool.or_eq_false_iff, Bool.not_eq_false', List.all_eq_true, Bool.and_eq_true, decide_eq_true_eq] at hd
    refine ⟨digits.map fun ch => ch.toNat - 48, ?_, ?_, ?_, ?_⟩
    · intro h
      rw [List.map_eq_nil_iff] at h
      rw [h] at hd
      exact absurd hd.1 (by simp)
    · intro d hd'
      obtain ⟨ch, hch, rfl⟩ := List.mem_map.1 hd'
      have := hd.2 ch hch
      omega
    · rw [List.map_map]
      conv_lhs => rw [← List.map_id digits]
      apply List.map_congr_left
      intro ch hch
      have := hd.2 ch hch
      show ch = Char.ofNat (48 + (ch.toNat - 48))
      rw [show 48 + (ch.toNat - 48) = ch.toNat by omega, Char.ofNat_toNat]
    · rw [List.foldl_map]
  unfold SiApi.parseOctal at hp
  split at hp
  · next digits r =>
    simp only at hp
    split at hp
    · cases hp
    · next hd =>
      split at hp
      · next hlt =>
        cases hp
        obtain ⟨ds, h1, h2, h3, h4⟩ := key r (by simpa using hd)
        exact ⟨⟨ds, h1, h2, .inr (by rw [h3]), h4⟩, hlt⟩
      · cases hp
  · next digits _ =>
    simp only at hp
    split at hp
    · cases hp
    · next hd =>
      split at hp
      · next hlt =>
        cases hp
        obtain ⟨ds, h1, h2, h3, h4⟩ := key p (by simpa using hd)
        exact ⟨⟨ds, h1, h2, .inl h3, h4⟩, hlt⟩
      · cases hp

/-- A prepared file, and the file it is meant to become. -/
def toFile (f : SiApi.File) : SiClient.File := ⟨f.path, (hexDecode f.contentsHex).getD [], f.permissions.getD 0o600⟩

/-- The instructions for a prepared file. -/
def fileSeg (f : SiApi.File) : List Item :=
  [(.binaryFile, "name".toList, .text f.path), (.binaryFile, "length".toList, .int f.len)] ++
    (match f.permissions with
      | some n => [(.binaryFile, "mode".toList, .int n)]
      | none => []) ++
    [(.binaryFile, "data001".toList, .bytes ((hexDecode f.contentsHex).getD [])),
     (.binaryFile, "sha-384".toList, .bytes ((hexDecode f.hashHex).getD []))]

/-- A file was prepared from its settings. -/
structure Prepared (read : List Char → Option Bytes) (sha : Bytes → Bytes) (f : SiApi.FileSetting) (p : SiApi.File) : Prop where
  configured : Configured read f (toFile p)
  contents : ∃ c, p.contentsHex = hexEncode c ∧ p.len = c.length ∧ p.hashHex = hexEncode (sha c)
  mode : ∀ n, p.permissions = some n → n < 2 ^ 32

theorem prepareFile_some {sha : Bytes → Bytes} {f : SiApi.FileSetting} {p : SiApi.File}
    (hp : SiApi.prepareFile read sha f = some p) : Prepared read sha f p := by
  unfold SiApi.prepareFile at hp
  split at hp
  · next hn =>
    cases hr : read f.source with
    | none => rw [hr] at hp; cases hp
    | some c =>
      rw [hr] at hp
      cases hp
      refine ⟨⟨rfl, ?_, .inl ⟨hn, rfl⟩⟩, ⟨c, rfl, rfl, rfl⟩, fun n hn => by cases hn⟩
      simp [toFile, hexDecode_encode, hr]
  · next t ht =>
    split at hp
    · cases hp
    · next n hn =>
      cases hr : read f.source with
      | none => rw [hr] at hp; cases hp
      | some c =>
        rw [hr] at hp
        cases hp
        refine ⟨⟨rfl, ?_, .inr ⟨t, ht, (parseOctal_some hn).1⟩⟩, ⟨c, rfl, rfl, rfl⟩, fun k hk => ?_⟩
        · simp [toFile, hexDecode_encode, hr]
        · cases hk
          exact (parseOctal_some hn).2

theorem prepareFiles_some {sha : Bytes → Bytes} {fs : List SiApi.FileSetting} {ps : List SiApi.File}
    (hp : SiApi.prepareFiles read sha fs = some ps) : List.Forall₂ (Prepared read sha) fs ps := by
  induction fs generalizing ps with
  | nil => cases hp; exact .nil
  | cons f fs ih =>
    unfold SiApi.prepareFiles at hp
    split at hp
    · next x l hx hl =>
      cases hp
      exact .cons (prepareFile_some hx) (ih hl)
    · cases hp

theorem fileExtras_items {p : SiApi.File} (hc : ∃ c, p.contentsHex = hexEncode c) (hh : ∃ d, p.hashHex = hexEncode d) :
    extraItems (tagged .binaryFile (SiApi.fileExtras p)) = some (fileSeg p) := by
  obtain ⟨c, hc⟩ := hc
  obtain ⟨d, hd⟩ := hh
  have e1 : ∀ v, extraItem (.binaryFile, "name".toList, v) = some (.binaryFile, "name".toList, v) := fun v => rfl
  have e2 : ∀ v, extraItem (.binaryFile, "length".toList, v) = some (.binaryFile, "length".toList, v) := fun v => rfl
  have e3 : ∀ v, extraItem (.binaryFile, "mode".toList, v) = some (.binaryFile, "mode".toList, v) := fun v => rfl
  have e4 : ∀ s, extraItem (.binaryFile, "data001|hex".toList, .text s) =
    (hexDecode s).map fun b => (.binaryFile, "data001".toList, .bytes b) := fun v => rfl
  have e5 : ∀ s, extraItem (.binaryFile, "sha-384|hex".toList, .text s) =
    (hexDecode s).map fun b => (.binaryFile, "sha-384".toList, .bytes b) := fun v => rfl
  unfold fileSeg SiApi.fileExtras tagged
  cases hp : p.permissions with
  | none =>
    simp only [List.append_nil, List.cons_append, List.nil_append, List.map_cons, List.map_nil, extraItems, e1, e2, e4, e5,
      hc, hd, hexDecode_encode, Option.map_some, Option.getD_some]
  | some n =>
    simp only [List.cons_append, List.nil_append, List.map_cons, List.map_nil, extraItems, e1, e2, e3, e4, e5,
      hc, hd, hexDecode_encode, Option.map_some, Option.getD_some]

theorem fileSeg_shape (p : SiApi.File) : ∃ i x, fileSeg p = i ++ [x] ∧ "sha-".toList.isPrefixOf x.2.1 = true ∧
    ∀ y ∈ i, "sha-".toList.isPrefixOf y.2.1 = false := by
  refine ⟨[(.binaryFile, "name".toList, .text p.path), (.binaryFile, "length".toList, .int p.len)] ++
    (match p.permissions with
      | some n => [(.binaryFile, "mode".toList, .int n)]
      | none => []) ++
    [(.binaryFile, "data001".toList, .bytes ((hexDecode p.contentsHex).getD []))],
    (.binaryFile, "sha-384".toList, .bytes ((hexDecode p.hashHex).getD [])), ?_, rfl, ?_⟩
  · unfold fileSeg
    rw [List.append_assoc, List.append_assoc]
    rfl
  · intro y hy
    cases hp : p.permissions with
    | none =>
      rw [hp] at hy
      simp only [List.append_nil, List.cons_append, List.nil_append, List.mem_cons, List.not_mem_nil, or_false] at hy
      rcases hy with rfl | rfl | rfl <;> rfl
    | some n =>
      rw [hp] at hy
      simp only [List.cons_append, List.nil_append, List.mem_cons, List.not_mem_nil, or_false] at hy
      rcases hy with rfl | rfl | rfl | rfl <;> rfl

theorem fileSeg_active (p : SiApi.File) : ∀ y ∈ fileSeg p, y.2.1 ≠ "active".toList := by
  intro y hy
  unfold fileSeg at hy
  cases hp : p.permissions with
  | none =>
    rw [hp] at hy
    simp only [List.append_nil, List.cons_append, List.nil_append, List.mem_cons, List.not_mem_nil, or_false] at hy
    rcases hy with rfl | rfl | rfl | rfl <;> simp
  | some n =>
    rw [hp] at hy
    simp only [List.cons_append, List.nil_append, List.mem_cons, List.not_mem_nil, or_false] at hy
    rcases hy with rfl | rfl | rfl | rfl | rfl <;> simp

/-- Only the file meant is announced. -/
theorem announces_unique {p : SiApi.File} {g : SiClient.File} (hm : ∀ n, p.permissions = some n → n < 2 ^ 32)
    (ha : SiClient.Announces h (fileSeg p) g) : g = toFile p := by
  have v1 : SiClient.valuesOf "name".toList (fileSeg p) = [.text p.path] := by
    unfold SiClient.valuesOf fileSeg
    cases p.permissions <;> simp
  have v2 : SiClient.chunks (fileSeg p) = [.bytes ((hexDecode p.contentsHex).getD [])] := by
    unfold SiClient.chunks fileSeg
    cases p.permissions <;> rfl
  have v3 : SiClient.valuesOf "mode".toList (fileSeg p) = (p.permissions.map fun n : Nat => Val.int n).toList := by
    unfold SiClient.valuesOf fileSeg
    cases p.permissions <;> simp
  obtain ⟨path, contents, mode⟩ := g
  have h1 := ha.name
  rw [v1] at h1
  obtain ⟨cs, h2, h3⟩ := ha.data
  rw [v2] at h2
  have h4 := ha.mode
  rw [v3] at h4
  simp only at h1 h3 h4
  have e1 : path = p.path := by
    cases h1
    rfl
  have e2 : contents = (hexDecode p.contentsHex).getD [] := by
    rw [h3]
    match cs, h2 with
    | [c], h2 =>
      simp only [List.map_cons, List.map_nil, List.cons.injEq, Val.bytes.injEq, and_true] at h2
      rw [← h2]
      simp
  have e3 : mode = p.permissions.getD 0o600 := by
    cases hp : p.permissions with
    | none =>
      rw [hp] at h4
      rcases h4 with ⟨_, h4⟩ | ⟨n, h4, _⟩
      · exact h4
      · cases h4
    | some k =>
      rw [hp] at h4
      have := hm k hp
      rcases h4 with ⟨h4, _⟩ | ⟨n, h4, h5⟩
      · cases h4
      · simp only [Option.map_some, Option.toList_some, List.cons.injEq, Val.int.injEq, and_true] at h4
        subst h4
        rw [Option.getD_some]
        omega
  unfold toFile
  rw [e1, e2, e3]

theorem forall₂_map_unique {α β γ : Type} {R : β → γ → Prop} {f : α → β} {g : α → γ} {l : List α}
    (hu : ∀ a ∈ l, ∀ c, R (f a) c → c = g a) {cs : List γ} (hR : List.Forall₂ R (l.map f) cs) : cs = l.map g := by
  induction l generalizing cs with
  | nil => cases hR; rfl
  | cons a l ih =>
    rw [List.map_cons] at hR
    cases hR with
    | cons h1 h2 =>
      rw [hu a (by simp) _ h1, ih (fun a ha => hu a (by simp [ha])) h2]
      rfl

/-- **C53**, files: the device deploys exactly the files in the settings of the service info server, if it has the module
for this, in their order, with the contents of their sources and the mode in the settings. Up to every point, what was
done is the beginning of this; and all of it was done if processing the message succeeded. -/
theorem C53_files_partial (hS : Setup h enc dec read settings o s token guid mods version m)
    (hadd : ∀ x ∈ settings.additional.getD [], x.1 ≠ .binaryFile) (t : Trace SiClient.sig) : ∃ gs,
    List.Forall₂ (Configured read) (if .binaryFile ∈ mods then settings.files.getD [] else []) gs ∧
    (Prog.Does (SiClient.process h (siItems dec m.si)) t →
      SiClient.Begun (gs.flatMap (SiClient.deployment h)) (SiClient.acts .binaryFile t)) ∧
    (∀ r, Prog.Ends (SiClient.process h (siItems dec m.si)) t (.ok r) →
      SiClient.acts .binaryFile t = (gs.flatMap (SiClient.deployment h)).map fun a => (a, true)) := by
  obtain ⟨r, l, ms, hl, hr, hx, -, hms⟩ := setup_items hS
  have hconf := hS.config
  have hfiles : s.config.additional = settings.additional ∧
      List.Forall₂ (Prepared read (h.digest .sha384)) (settings.files.getD []) (s.config.files.getD []) := by
    unfold SiApi.fromSettings at hconf
    split at hconf
    · next hf =>
      rw [← Option.some.inj hconf, hf]
      exact ⟨rfl, .nil⟩
    · next fs hf =>
      cases hp : SiApi.prepareFiles read (h.digest .sha384) fs with
      | none => rw [hp] at hconf; cases hconf
      | some ps =>
        rw [hp] at hconf
        rw [← Option.some.inj hconf, hf]
        exact ⟨rfl, prepareFiles_some hp⟩
  rw [← hfiles.1] at hadd
  obtain ⟨b, hb, hfile, -, -⟩ := handler_holds hx .binaryFile hadd
  have hfile := hfile rfl
  have hin : (SiModule.binaryFile ∈ (⟨1, guid, ms⟩ : SiApi.Query).modules) ↔ .binaryFile ∈ mods :=
    hms _ (by intro s hs; cases hs)
  obtain ⟨ps, hps, hpre⟩ : ∃ ps, Holds .binaryFile b (ps.flatMap SiApi.fileExtras) ∧
      List.Forall₂ (Prepared read (h.digest .sha384)) (if .binaryFile ∈ mods then settings.files.getD [] else []) ps := by
    by_cases hm : SiModule.binaryFile ∈ mods
    · rw [if_pos (hin.2 hm)] at hfile
      rw [if_pos hm]
      exact ⟨_, hfile, hfiles.2⟩
    · rw [if_neg (fun h => hm (hin.1 h))] at hfile
      rw [if_neg hm]
      exact ⟨[], hfile, .nil⟩
  have hP : ∀ p ∈ ps, ∃ f, Prepared read (h.digest .sha384) f p := by
    generalize (if SiModule.binaryFile ∈ mods then settings.files.getD [] else []) = fs at hpre
    clear hps
    induction hpre with
    | nil => exact fun p hp => by cases hp
    | cons h1 _ ih =>
      intro p hp
      rcases List.mem_cons.1 hp with rfl | hp
      · exact ⟨_, h1⟩
      · exact ih p hp
  have hmod : SiClient.toModule .binaryFile l = ps.flatMap fileSeg :=
    toModule_items (by decide) hr hb hps (fun p hp => by
      obtain ⟨f, hf⟩ := hP p hp
      obtain ⟨c, h1, -, h3⟩ := hf.contents
      exact fileExtras_items ⟨c, h1⟩ ⟨_, h3⟩) fileSeg_active
  have hpieces : SiClient.filePieces l = (ps.map fileSeg, []) := by
    unfold SiClient.filePieces
    rw [hmod]
    exact splitAfter_segs _ _ fileSeg_shape ps
  refine ⟨ps.map toFile, ?_, fun hd => ?_, fun res he => ?_⟩
  · rw [List.forall₂_map_right_iff]
    exact hpre.imp fun _ _ h => h.configured
  · rw [hl] at hd
    obtain ⟨fs, h1, h2, h3⟩ := (SiClient.C50_files_partial l t).1 hd
    rw [hpieces, ← List.map_take] at h2
    have := forall₂_map_unique (g := toFile) (fun p hp c hc => by
      obtain ⟨f, hf⟩ := hP p (List.mem_of_mem_take hp)
      exact announces_unique hf.mode hc) h2
    refine ⟨h3.1.trans ?_, h3.2⟩
    have : (fs.flatMap (SiClient.deployment h)) <+: (ps.map toFile).flatMap (SiClient.deployment h) := by
      rw [this, List.map_take]
      conv_rhs => rw [← List.take_append_drop fs.length (ps.map toFile), List.flatMap_append]
      exact List.prefix_append _ _
    exact this
  · rw [hl] at he
    obtain ⟨fs, h2, h3⟩ := (SiClient.C50_files_partial l t).2 res he
    rw [hpieces] at h2
    rw [h3, forall₂_map_unique (g := toFile) (fun p hp c hc => by
      obtain ⟨f, hf⟩ := hP p hp
      exact announces_unique hf.mode hc) h2]

/-! ### C53, commands -/

/-- Specification: a command as in the settings. -/
def asCmd (c : SiApi.Command) : SiClient.Cmd := ⟨c.command, c.args, c.mayFail, c.returnStdout, c.returnStderr⟩

/-- The instructions for a command. -/
def cmdSeg (c : SiApi.Command) : List Item := tagged .command (SiApi.commandExtras c)

theorem commandExtras_items (c : SiApi.Command) : extraItems (tagged .command (SiApi.commandExtras c)) = some (cmdSeg c) := rfl

theorem cmdSeg_shape (c : SiApi.Command) : ∃ i x, cmdSeg c = i ++ [x] ∧ decide (x.2.1 = "execute".toList) = true ∧
    ∀ y ∈ i, decide (y.2.1 = "execute".toList) = false := by
  refine ⟨[(.command, "command".toList, .text c.command), (.command, "args".toList, .array (c.args.map .text)),
    (.command, "may_fail".toList, .bool c.mayFail), (.command, "return_stdout".toList, .bool c.returnStdout),
    (.command, "return_stderr".toList, .bool c.returnStderr)], (.command, "execute".toList, .bool true), rfl, by decide, ?_⟩
  intro y hy
  simp only [List.mem_cons, List.not_mem_nil, or_false] at hy
  rcases hy with rfl | rfl | rfl | rfl | rfl <;> simp

theorem cmdSeg_active (c : SiApi.Command) : ∀ y ∈ cmdSeg c, y.2.1 ≠ "active".toList := by
  intro y hy
  simp only [cmdSeg, tagged, SiApi.commandExtras, List.map_cons, List.map_nil, List.mem_cons, List.not_mem_nil, or_false] at hy
  rcases hy with rfl | rfl | rfl | rfl | rfl | rfl <;> simp

theorem flag_unique {seg : List Item} {k : List Char} {a b : Bool} (hv : SiClient.valuesOf k seg = [.bool a])
    (hf : SiClient.Flag seg k b) : b = a := by
  unfold SiClient.Flag at hf
  rw [hv] at hf
  rcases hf with hf | hf
  · simp only [List.getLast?_singleton, Option.some.injEq, Val.bool.injEq] at hf
    exact hf.symm
  · simp at hf

theorem describes_unique {c : SiApi.Command} {d : SiClient.Cmd} (hd : SiClient.Describes (cmdSeg c) d) : d = asCmd c := by
  obtain ⟨prog, args, mf, so, se⟩ := d
  have e1 := hd.command
  have v1 : SiClient.valuesOf "command".toList (cmdSeg c) = [.text c.command] := rfl
  have v2 : SiClient.valuesOf "args".toList (cmdSeg c) = [.array (c.args.map .text)] := rfl
  have e3 := flag_unique (show SiClient.valuesOf "may_fail".toList (cmdSeg c) = [.bool c.mayFail] from rfl) hd.mayFail
  have e4 := flag_unique (show SiClient.valuesOf "return_stdout".toList (cmdSeg c) = [.bool c.returnStdout] from rfl) hd.wantStdout
  have e5 := flag_unique (show SiClient.valuesOf "return_stderr".toList (cmdSeg c) = [.bool c.returnStderr] from rfl) hd.wantStderr
  rw [v1] at e1
  have e2 := hd.args
  rw [v2] at e2
  simp only at e1 e2 e3 e4 e5
  have e1 : prog = c.command := by
    cases e1
    rfl
  have e2 : args = c.args := by
    rcases e2 with e2 | e2
    · simp only [List.getLast?_singleton, Option.some.injEq, Val.array.injEq] at e2
      exact (List.map_injective_iff.2 (fun a b h => Val.text.inj h) e2).symm
    · simp at e2
  unfold asCmd
  rw [e1, e2, e3, e4, e5]

/-- **C53**, commands: the device runs exactly the commands in the settings of the service info server, if it has the
module for this, in their order and with their arguments. Up to every point, the commands run are the first ones of
these; if one failed that must not, then nothing was done after it. If processing the message succeeded, then all were
run, and what is answered about commands are their reports. -/
theorem C53_commands_partial (hS : Setup h enc dec read settings o s token guid mods version m)
    (hadd : ∀ x ∈ settings.additional.getD [], x.1 ≠ .command) (t : Trace SiClient.sig) (cs : List SiClient.Cmd)
    (hcs : cs = (if .command ∈ mods then settings.commands.getD [] else []).map asCmd) :
    (Prog.Does (SiClient.process h (siItems dec m.si)) t → SiClient.acts .command t = [] ∧ ∃ n,
      List.Forall₂ SiClient.Passed (cs.take n) (SiClient.ran .command t) ∨
      ∃ c t0 out, cs[n]? = some c ∧ t = t0 ++ [⟨.host .command (.run c.prog c.args none), out⟩] ∧
        List.Forall₂ SiClient.Passed (cs.take n) (SiClient.ran .command t0) ∧ ¬SiClient.Passed c ⟨c.prog, c.args, none, out⟩) ∧
    (∀ reboot out, Prog.Ends (SiClient.process h (siItems dec m.si)) t (.ok (reboot, out)) →
      List.Forall₂ SiClient.Passed cs (SiClient.ran .command t) ∧
      SiClient.aboutCommands out = SiClient.reports cs (SiClient.ran .command t)) := by
  obtain ⟨r, l, ms, hl, hr, hx, -, hms⟩ := setup_items hS
  have hconf := hS.config
  have hc : s.config.additional = settings.additional ∧ s.config.commands = settings.commands := by
    unfold SiApi.fromSettings at hconf
    split at hconf
    · rw [← Option.some.inj hconf]
      exact ⟨rfl, rfl⟩
    · next fs hf =>
      cases hp : SiApi.prepareFiles read (h.digest .sha384) fs with
      | none => rw [hp] at hconf; cases hconf
      | some ps =>
        rw [hp] at hconf
        rw [← Option.some.inj hconf]
        exact ⟨rfl, rfl⟩
  rw [← hc.1] at hadd
  obtain ⟨b, hb, -, hcmd, -⟩ := handler_holds hx .command hadd
  have hcmd := hcmd rfl
  have hin : (SiModule.command ∈ (⟨1, guid, ms⟩ : SiApi.Query).modules) ↔ .command ∈ mods :=
    hms _ (by intro s hs; cases hs)
  obtain ⟨ps, hps, rfl⟩ : ∃ ps : List SiApi.Command, Holds .command b (ps.flatMap SiApi.commandExtras) ∧ cs = ps.map asCmd := by
    by_cases hm : SiModule.command ∈ mods
    · rw [if_pos (hin.2 hm), hc.2] at hcmd
      rw [if_pos hm] at hcs
      exact ⟨_, hcmd, hcs⟩
    · rw [if_neg (fun h => hm (hin.1 h))] at hcmd
      rw [if_neg hm] at hcs
      exact ⟨[], hcmd, hcs⟩
  have hmod : SiClient.toModule .command l = ps.flatMap cmdSeg :=
    toModule_items (by decide) hr hb hps (fun p _ => commandExtras_items p) cmdSeg_active
  have hpieces : SiClient.cmdPieces l = (ps.map cmdSeg, []) := by
    unfold SiClient.cmdPieces
    rw [hmod]
    exact splitAfter_segs _ _ cmdSeg_shape ps
  refine ⟨fun hd => ?_, fun reboot out he => ?_⟩
  · rw [hl] at hd
    obtain ⟨h0, ds, h1, h2, h3⟩ := (SiClient.C51_commands l t).1 hd
    refine ⟨h0, ?_⟩
    rw [hpieces, ← List.map_take] at h2
    have := forall₂_map_unique (g := asCmd) (fun p _ c hc => describes_unique hc) h2
    rw [List.map_take] at this
    rcases h3 with h3 | ⟨ds', c, t0, out, e1, e2, e3, e4⟩
    · exact ⟨ds.length, .inl (by rw [← this]; exact h3)⟩
    · refine ⟨ds'.length, .inr ⟨c, t0, out, ?_, e2, ?_, e4⟩⟩
      · have hlen : ds.length = ds'.length + 1 := by rw [e1]; simp
        have : ds[ds'.length]? = ((ps.map asCmd).take ds.length)[ds'.length]? := by rw [← this]
        rw [List.getElem?_take_of_lt (by omega)] at this
        rw [← this, e1]
        simp
      · have hlen : ds.length = ds'.length + 1 := by rw [e1]; simp
        have : ds.take ds'.length = ((ps.map asCmd).take ds.length).take ds'.length := by rw [← this]
        rw [List.take_take, e1, List.take_left] at this
        rw [show min ds'.length (ds' ++ [c]).length = ds'.length by simp] at this
        rw [← this]
        exact e3
  · rw [hl] at he
    obtain ⟨ds, h1, h2, h3⟩ := (SiClient.C51_commands l t).2 reboot out he
    rw [hpieces] at h1
    rw [forall₂_map_unique (g := asCmd) (fun p _ c hc => describes_unique hc) h1] at h2 h3
    exact ⟨h2, h3⟩

end

end Verif.SiPipeline
