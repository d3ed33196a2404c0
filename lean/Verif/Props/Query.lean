import Verif.Model.Url
import Verif.Props.SiPipeline
import Verif.Props.OwnerServer
/-!
**C92**: a device gets the service info for itself, whatever modules it announces.

The owner server puts the names announced by the device into the query of its request to the service info server, without escaping. A
device may therefore add fields to the query. It cannot change the GUID: a field that is there twice is an error.
-/
namespace Verif.Url
open Verif Verif.Types Verif.ServiceInfo Verif.SiPipeline
open Verif.Store (guidText)

/-! ### The query -/

theorem setQuery_append (a b : List Char) : setQuery (a ++ b) = setQuery a ++ setQuery b := List.flatMap_append

theorem setQuery_same {s : List Char} (h : ∀ c ∈ s, setChar c = [c]) : setQuery s = s := by
  induction s with
  | nil => rfl
  | cons c s ih =>
    show setChar c ++ setQuery s = _
    rw [h c (by simp), ih fun x hx => h x (by simp [hx])]
    rfl

/-- `form_urlencoded` leaves text without escapes as it is. -/
theorem unescapes {lossy : Bytes → List Char} (hl : ∀ s : List Char, lossy (s.flatMap String.utf8EncodeChar) = s) :
    Unescapes (unescape lossy) := by
  intro s h1 h2
  have : decode s = s.flatMap String.utf8EncodeChar := by
    induction s with
    | nil => rfl
    | cons c s ih =>
      simp only [List.mem_cons, not_or] at h1 h2
      rw [decode.eq_def]
      simp only
      rw [if_neg fun h => h2.1 h.symm, if_neg fun h => h1.1 h.symm, ih h1.2 h2.2]
      rfl
  unfold unescape
  rw [this, hl]

/-- Of a field that comes first in a query, the value is the one read, if any is. -/
theorem fieldOf_mem {l : List (List Char × List Char)} {name v x : List Char} (h : SiApi.fieldOf l name = some x) (hm : (name, v) ∈ l) :
    x = v := by
  unfold SiApi.fieldOf at h
  have hf : (name, v) ∈ l.filter fun y => y.1 = name := List.mem_filter.2 ⟨hm, by simp⟩
  split at h
  · rename_i y hy
    rw [hy, List.mem_singleton] at hf
    subst hf
    exact (Option.some.inj h).symm
  · cases h

/-- The first two fields of the query are those the owner server has written. -/
theorem pairs_api {un : List Char → List Char} (hun : Unescapes un) {g m : List Char} (hg : Quiet g) :
    SiApi.pairs un ("serviceinfo_api_version=1&device_guid=".toList ++ g ++ "&modules=".toList ++ m) =
      ("serviceinfo_api_version".toList, "1".toList) :: ("device_guid".toList, g) :: SiApi.pairs un ("modules".toList ++ '=' :: m) := by
  have hq : "serviceinfo_api_version=1&device_guid=".toList ++ g ++ "&modules=".toList ++ m =
      ("serviceinfo_api_version".toList ++ '=' :: "1".toList) ++ '&' :: (("device_guid".toList ++ '=' :: g) ++ '&' ::
        ("modules".toList ++ '=' :: m)) := by
    have e1 : "serviceinfo_api_version=1&device_guid=".toList =
        ("serviceinfo_api_version".toList ++ '=' :: "1".toList) ++ '&' :: "device_guid".toList ++ ['='] := by decide
    have e2 : "&modules=".toList = '&' :: "modules".toList ++ ['='] := by decide
    rw [e1, e2]
    simp only [List.append_assoc, List.cons_append, List.nil_append]
  have n2 : '&' ∉ "device_guid".toList ++ '=' :: g := by
    simp only [List.mem_append, List.mem_cons, not_or]
    exact ⟨by decide, by decide, fun h => (hg _ h).1 rfl⟩
  unfold SiApi.pairs
  rw [hq, Text.splitAll_append (by decide), Text.splitAll_append n2]
  have f : ∀ a b : List Char, (!(a ++ '=' :: b).isEmpty) = true := by
    intro a b
    cases a <;> rfl
  rw [List.filter_cons, if_pos (f _ _), List.filter_cons, if_pos (f _ _)]
  simp only [List.map_cons]
  rw [splitEq_append (by decide), splitEq_append (by decide)]
  simp only
  rw [hun "serviceinfo_api_version".toList (by decide) (by decide), hun "1".toList (by decide) (by decide),
    hun "device_guid".toList (by decide) (by decide), hun g (fun h => (hg _ h).2.1 rfl) (fun h => (hg _ h).2.2 rfl)]

theorem hexDigit_plain {b : Bytes} {ch : Char} (h : ch ∈ hexEncode b) : setChar ch = [ch] := by
  have hd : ∀ n, n < 16 → setChar (hexDigit n) = [hexDigit n] := by decide
  induction b with
  | nil => cases h
  | cons x r ih =>
    simp only [hexEncode, List.mem_cons] at h
    rcases h with rfl | rfl | h
    · exact hd _ (by have := x.toNat_lt; omega)
    · exact hd _ (by omega)
    · exact ih h

theorem guidText_plain (g : Bytes) : ∀ c ∈ guidText g, setChar c = [c] := by
  intro ch h
  unfold guidText at h
  simp only [List.mem_append, List.mem_singleton] at h
  have d : ∀ c, c = '-' → setChar c = [c] := by
    rintro c rfl
    decide
  rcases h with ((((((((h | h) | h) | h) | h) | h) | h) | h) | h)
  · exact hexDigit_plain (List.mem_of_mem_take h)
  · exact d _ h
  · exact hexDigit_plain (List.mem_of_mem_drop (List.mem_of_mem_take h))
  · exact d _ h
  · exact hexDigit_plain (List.mem_of_mem_drop (List.mem_of_mem_take h))
  · exact d _ h
  · exact hexDigit_plain (List.mem_of_mem_drop (List.mem_of_mem_take h))
  · exact d _ h
  · exact hexDigit_plain (List.mem_of_mem_drop h)

theorem setQuery_api (g : Bytes) (m : List (List Char)) : setQuery (apiQuery (guidText g) m) =
    "serviceinfo_api_version=1&device_guid=".toList ++ guidText g ++ "&modules=".toList ++ setQuery (joinWith [','] m) := by
  unfold apiQuery
  rw [setQuery_append, setQuery_append, setQuery_append, setQuery_same (guidText_plain g), setQuery_same (s := "&modules=".toList) (by decide),
    setQuery_same (s := "serviceinfo_api_version=1&device_guid=".toList) (by decide)]

/-- **C92**: whatever names a device announces, and whatever characters there are in them: if the service info server takes the query of
the owner server, then as a query of the version 1 for this device. -/
theorem C92_own_guid {un : List Char → List Char} (hun : Unescapes un) {guid : Bytes} (hg : guid.length = 16) (modules : List (List Char))
    {q : SiApi.Query} (h : SiApi.parseQuery un (setQuery (apiQuery (guidText guid) modules)) = some q) : q.guid = guid ∧ q.version = 1 := by
  rw [setQuery_api] at h
  have hr := pairs_api hun (g := guidText guid) (m := setQuery (joinWith [','] modules)) (guidText_quiet guid)
  unfold SiApi.parseQuery at h
  simp only [hr] at h
  split at h
  · rename_i v g m hv hgu hm
    have e1 := fieldOf_mem hv (v := "1".toList) (by simp)
    have e2 := fieldOf_mem hgu (v := guidText guid) (by simp)
    subst e1 e2
    rw [RvServer.parseGuid_of hg, show Text.parseU32 "1".toList = some 1 by decide] at h
    simp only [Option.some.injEq] at h
    subst h
    exact ⟨rfl, rfl⟩
  · cases h

/-- What the service info server answers is made for this device: with the initial user set for it, if there is one. -/
theorem C92_reply {o : SiApi.Oracle} {s : SiApi.Server} {token : Option (List Char)} (hun : Unescapes o.unescape) {guid : Bytes}
    (hg : guid.length = 16) (modules : List (List Char)) {r : ApiReply}
    (h : ask o s token (apiQuery (guidText guid) modules) = some r) :
    ∃ ms, SiApi.handler s.config (o.perDevice guid) ⟨1, guid, ms⟩ = some r ∧
      r.user = if SiModule.sshKey ∈ ms then (o.perDevice guid).getD s.config.user else none := by
  unfold ask SiApi.answer at h
  split at h
  · rename_i r' hr
    cases h
    replace hr : SiApi.deviceInfo o s (SiApi.ownerRequest token (setQuery (apiQuery (guidText guid) modules))) = .info r := hr
    unfold SiApi.deviceInfo at hr
    split at hr
    · cases hr
    · split at hr
      · split at hr
        · cases hr
        · rename_i q hq
          obtain ⟨e1, e2⟩ := C92_own_guid hun hg modules hq
          obtain ⟨ver, g, ms⟩ := q
          subst e1 e2
          split at hr
          · cases hr
          · rename_i x hx
            cases hr
            refine ⟨ms, hx, ?_⟩
            unfold SiApi.handler at hx
            simp only [ne_eq, not_true_eq_false, if_false, Option.some.injEq] at hx
            rw [← hx]
            show SiApi.userFor s.config (o.perDevice g) ⟨1, g, ms⟩ = if SiModule.sshKey ∈ ms then (o.perDevice g).getD s.config.user else none
            unfold SiApi.userFor
            show (if SiModule.sshKey ∈ ms then _ else none) = _
            cases o.perDevice g <;> rfl
      · cases hr
  · cases h

/-- For names of modules the device has (see C53), the query arrives as it is meant: for these modules and no others. -/
theorem C92_modules_partial {un : List Char → List Char} (hun : Unescapes un) {guid : Bytes} (hg : guid.length = 16) {mods : List SiModule}
    (hk : ∀ x ∈ mods, x.known) :
    ∃ ms, SiApi.parseQuery un (setQuery (apiQuery (guidText guid) (mods.map SiModule.display).eraseDups)) = some ⟨1, guid, ms⟩ ∧
      ∀ x, x.known → (x ∈ ms ↔ x ∈ mods) := by
  obtain ⟨ms, h1, h2, -⟩ := query_parsed hun hg hk
  refine ⟨ms, ?_, h2⟩
  rw [← h1]
  congr 1
  rw [setQuery_api]
  unfold apiQuery
  congr 1
  apply setQuery_same
  intro ch hch
  rcases joinWith_mem hch with h | ⟨s, hs, h⟩
  · rw [List.mem_singleton.1 h]
    decide
  · rw [List.mem_eraseDups] at hs
    obtain ⟨x, hx, rfl⟩ := List.mem_map.1 hs
    have hall : ∀ y : SiModule, y.known → ∀ c ∈ y.display, setChar c = [c] := by
      intro y hy
      cases y with
      | unsupported s => exact absurd rfl (hy s)
      | _ => decide
    exact hall x (hk x hx) ch h

/-- Reading a query whose fields after the GUID are known. -/
theorem parse_rest {un : List Char → List Char} (hun : Unescapes un) {guid : Bytes} (hg : guid.length = 16) {modules : List (List Char)}
    {l : List (List Char × List Char)}
    (hl : SiApi.pairs un ("modules".toList ++ '=' :: setQuery (joinWith [','] modules)) = l) :
    (∀ m, SiApi.fieldOf l "modules".toList = some m → (∀ x ∈ l, x.1 ≠ "serviceinfo_api_version".toList ∧ x.1 ≠ "device_guid".toList) →
      SiApi.parseQuery un (setQuery (apiQuery (guidText guid) modules)) = some ⟨1, guid, (Text.splitAll ',' m).map SiModule.fromStr⟩) ∧
    ((∃ x ∈ l, x.1 = "device_guid".toList) → SiApi.parseQuery un (setQuery (apiQuery (guidText guid) modules)) = none) := by
  have hr := pairs_api hun (g := guidText guid) (m := setQuery (joinWith [','] modules)) (guidText_quiet guid)
  rw [hl] at hr
  rw [setQuery_api]
  unfold SiApi.parseQuery
  simp only [hr]
  constructor
  · intro m hm hx
    have f1 : l.filter (fun x => x.1 = "serviceinfo_api_version".toList) = [] := by
      rw [List.filter_eq_nil_iff]
      exact fun x h e => (hx x h).1 (of_decide_eq_true e)
    have f2 : l.filter (fun x => x.1 = "device_guid".toList) = [] := by
      rw [List.filter_eq_nil_iff]
      exact fun x h e => (hx x h).2 (of_decide_eq_true e)
    have g1 : SiApi.fieldOf (("serviceinfo_api_version".toList, "1".toList) :: ("device_guid".toList, guidText guid) :: l)
        "serviceinfo_api_version".toList = some "1".toList := by
      unfold SiApi.fieldOf
      rw [List.filter_cons, if_pos (by decide), List.filter_cons, if_neg (by simp), f1]
    have g2 : SiApi.fieldOf (("serviceinfo_api_version".toList, "1".toList) :: ("device_guid".toList, guidText guid) :: l)
        "device_guid".toList = some (guidText guid) := by
      unfold SiApi.fieldOf
      rw [List.filter_cons, if_neg (by decide), List.filter_cons, if_pos (by simp), f2]
    have g3 : SiApi.fieldOf (("serviceinfo_api_version".toList, "1".toList) :: ("device_guid".toList, guidText guid) :: l)
        "modules".toList = some m := by
      rw [← hm]
      unfold SiApi.fieldOf
      rw [List.filter_cons, if_neg (by decide), List.filter_cons, if_neg (by simp)]
    rw [g1, g2, g3]
    simp only [RvServer.parseGuid_of hg, show Text.parseU32 "1".toList = some 1 by decide]
  · rintro ⟨x, hx, hn⟩
    have g2 : SiApi.fieldOf (("serviceinfo_api_version".toList, "1".toList) :: ("device_guid".toList, guidText guid) :: l)
        "device_guid".toList = none := by
      unfold SiApi.fieldOf
      rw [List.filter_cons, if_neg (by decide), List.filter_cons, if_pos (by simp)]
      cases hf : l.filter (fun x => x.1 = "device_guid".toList) with
      | nil =>
        have : x ∈ l.filter (fun x => x.1 = "device_guid".toList) := List.mem_filter.2 ⟨hx, decide_eq_true hn⟩
        rw [hf] at this
        cases this
      | cons y r => rfl
    rw [g2]
    split
    · rename_i h _
      cases h
    · rfl

/-- What fails: names with characters that mean something in queries. By the name `a&b` the query loses the modules named after it; by
the name `x&device_guid=` the query is refused and there is no service info at all; and one name may stand for two modules. -/
theorem C92_names_violated {un : List Char → List Char} (hun : Unescapes un) {guid : Bytes} (hg : guid.length = 16) :
    (∃ q, SiApi.parseQuery un (setQuery (apiQuery (guidText guid) ["a&b".toList, SiModule.display .sshKey])) = some q ∧
      .sshKey ∉ q.modules) ∧
    SiApi.parseQuery un (setQuery (apiQuery (guidText guid) [SiModule.display .sshKey, "x&device_guid=".toList])) = none ∧
    (∃ q, SiApi.parseQuery un (setQuery (apiQuery (guidText guid) [SiModule.display .sshKey ++ ',' :: SiModule.display .command])) = some q ∧
      .sshKey ∈ q.modules ∧ .command ∈ q.modules) := by
  refine ⟨⟨⟨1, guid, [SiModule.fromStr ['a']]⟩, ?_, show SiModule.sshKey ∉ [SiModule.fromStr ['a']] by decide⟩, ?_,
    ⟨⟨1, guid, [.sshKey, .command]⟩, ?_, .head _, .tail _ (.head _)⟩⟩
  · have hp : SiApi.pairs un ("modules".toList ++ '=' :: setQuery (joinWith [','] ["a&b".toList, SiModule.display .sshKey])) =
        [("modules".toList, ['a']), ('b' :: ',' :: SiModule.display .sshKey, [])] := by
      have e : Text.splitAll '&' ("modules".toList ++ '=' :: setQuery (joinWith [','] ["a&b".toList, SiModule.display .sshKey])) =
        ["modules=a".toList, 'b' :: ',' :: SiModule.display .sshKey] := by decide
      unfold SiApi.pairs
      rw [e, show ["modules=a".toList, 'b' :: ',' :: SiModule.display .sshKey].filter (fun s => !s.isEmpty) =
        ["modules=a".toList, 'b' :: ',' :: SiModule.display .sshKey] by decide]
      simp only [List.map_cons, List.map_nil]
      rw [show SiApi.splitEq "modules=a".toList = ("modules".toList, ['a']) by decide,
        show SiApi.splitEq ('b' :: ',' :: SiModule.display .sshKey) = ('b' :: ',' :: SiModule.display .sshKey, []) by decide]
      simp only
      rw [hun "modules".toList (by decide) (by decide), hun ['a'] (by decide) (by decide),
        hun ('b' :: ',' :: SiModule.display .sshKey) (by decide) (by decide), hun [] (by decide) (by decide)]
    exact (parse_rest hun hg hp).1 ['a'] (by decide) (by decide)
  · have hp : SiApi.pairs un ("modules".toList ++ '=' :: setQuery (joinWith [','] [SiModule.display .sshKey, "x&device_guid=".toList])) =
        [("modules".toList, SiModule.display .sshKey ++ ",x".toList), ("device_guid".toList, [])] := by
      have e : Text.splitAll '&' ("modules".toList ++ '=' :: setQuery (joinWith [','] [SiModule.display .sshKey, "x&device_guid=".toList])) =
        ["modules=".toList ++ SiModule.display .sshKey ++ ",x".toList, "device_guid=".toList] := by decide
      unfold SiApi.pairs
      rw [e, show ["modules=".toList ++ SiModule.display .sshKey ++ ",x".toList, "device_guid=".toList].filter (fun s => !s.isEmpty) =
        ["modules=".toList ++ SiModule.display .sshKey ++ ",x".toList, "device_guid=".toList] by decide]
      simp only [List.map_cons, List.map_nil]
      rw [show SiApi.splitEq ("modules=".toList ++ SiModule.display .sshKey ++ ",x".toList) =
          ("modules".toList, SiModule.display .sshKey ++ ",x".toList) by decide,
        show SiApi.splitEq "device_guid=".toList = ("device_guid".toList, []) by decide]
      simp only
      rw [hun "modules".toList (by decide) (by decide), hun (SiModule.display .sshKey ++ ",x".toList) (by decide) (by decide),
        hun "device_guid".toList (by decide) (by decide), hun [] (by decide) (by decide)]
    exact (parse_rest hun hg hp).2 ⟨_, .tail _ (.head _), rfl⟩
  · have hp : SiApi.pairs un ("modules".toList ++ '=' :: setQuery (joinWith [','] [SiModule.display .sshKey ++ ',' :: SiModule.display .command])) =
        [("modules".toList, SiModule.display .sshKey ++ ',' :: SiModule.display .command)] := by
      have e : Text.splitAll '&' ("modules".toList ++ '=' :: setQuery (joinWith [','] [SiModule.display .sshKey ++ ',' :: SiModule.display .command])) =
        ["modules=".toList ++ SiModule.display .sshKey ++ ',' :: SiModule.display .command] := by decide
      unfold SiApi.pairs
      rw [e, show ["modules=".toList ++ SiModule.display .sshKey ++ ',' :: SiModule.display .command].filter (fun s => !s.isEmpty) =
        ["modules=".toList ++ SiModule.display .sshKey ++ ',' :: SiModule.display .command] by decide]
      simp only [List.map_cons, List.map_nil]
      rw [show SiApi.splitEq ("modules=".toList ++ SiModule.display .sshKey ++ ',' :: SiModule.display .command) =
          ("modules".toList, SiModule.display .sshKey ++ ',' :: SiModule.display .command) by decide]
      simp only
      rw [hun "modules".toList (by decide) (by decide), hun (SiModule.display .sshKey ++ ',' :: SiModule.display .command) (by decide) (by decide)]
    exact (parse_rest hun hg hp).1 (SiModule.display .sshKey ++ ',' :: SiModule.display .command) (by decide) (by decide)

end Verif.Url

namespace Verif.OwnerServer
open Verif Verif.Voucher Verif.Types Verif.Store Verif.ServiceInfo Verif.SiPipeline


variable {R : OwnerEnv} {c : Bool} {B : VStore (Voucher R.E)} {cfg : Config R} {Id : Type} [DecidableEq Id]
  {idOf : List Char → Option Id} {aead : Http.Aead} {encode : Resp → Bytes}
local notation "Srv" => server R c B cfg Id idOf aead encode
local notation "Reached" => reached R c B cfg idOf aead encode
local notation "Histories" => Hist R c B cfg idOf aead encode

/-- **C92**, through the owner server: whenever it sends service info, in any history, and asks the service info server `s` for it, the
device of the voucher held for `g` has proven itself in that session, and the instructions are those made for `g`, with the initial user
set for `g`. -/
theorem C92_service_info (h : Histories) (rq : Http.Request Srv) (b : Bytes) (tok : Option (List Char))
    (hr : (Http.step (Reached h) rq).2 = .ok .to2OwnerServiceInfo b tok) {o : SiApi.Oracle} {s : SiApi.Server} {token : Option (List Char)}
    (hun : Unescapes o.unescape) (hapi : rq.oracle.api = Url.ask o s token) :
    ∃ i g n n7 ks msg, Http.InSession (Reached h) rq i ∧ Proven R c B cfg idOf aead encode h i g n n7 ks ∧
      aead.encrypt ks.sevk rq.iv (encode (.ownerSi msg)) = some b ∧
      (msg = ⟨false, true, []⟩ ∨
        ∃ ms reply items, SiApi.handler s.config (o.perDevice g) ⟨1, g, ms⟩ = some reply ∧
          reply.user = (if SiModule.sshKey ∈ ms then (o.perDevice g).getD s.config.user else none) ∧
          replyItems reply = some items ∧ msg = ⟨false, false, toSi R.encVal items⟩) := by
  obtain ⟨i, g, n, n7, ks, msg, h1, h2, h3, h4⟩ := C37_service_info h rq b tok hr
  refine ⟨i, g, n, n7, ks, msg, h1, h2, h3, ?_⟩
  rcases h4 with h4 | ⟨plain, si, ms, reply, items, -, -, -, h5, h6, h7⟩
  · exact .inl h4
  · rw [hapi] at h5
    have hg : g.length = 16 := by
      obtain ⟨_, _, _, _, _, _, _, _, _, _, -, -, -, hd, -⟩ := h2
      obtain ⟨_, _, _, _, _, _, _, _, -, -, -, -, -, -, hg, -⟩ := hd
      exact hg
    obtain ⟨ms', e1, e2⟩ := Url.C92_reply hun hg ms h5
    exact .inr ⟨ms', reply, items, e1, e2, h6, h7⟩

end Verif.OwnerServer
