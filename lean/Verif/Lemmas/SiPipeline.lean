import Verif.Props.SiCommands
import Verif.Props.SiApi
import Verif.Props.Types
import Verif.Props.Text
import Verif.Lemmas.RvServer
/-!
From the settings of the service info server to the instructions a device gets: lemmas.
-/
namespace Verif.SiPipeline
open Verif Verif.Types Verif.ServiceInfo

/-- The values of all these instructions can be read after having been written. -/
def Reads (enc : Val → Bytes) (dec : Bytes → Option Val) (l : List Item) : Prop := ∀ x ∈ l, dec (enc x.2.2) = some x.2.2

theorem toSi_eq (enc : Val → Bytes) (l : List Item) : toSi enc l = siAddAll (l.map fun e => (e.1, e.2.1, enc e.2.2)) := by
  unfold toSi siAddAll
  rw [List.foldl_map]

theorem toSi_items {enc : Val → Bytes} {dec : Bytes → Option Val} {l : List Item} (hr : Reads enc dec l)
    (hp : ∀ x ∈ l, x.1.plain) : siItems dec (toSi enc l) = l := by
  rw [toSi_eq]
  exact C20_added_partial enc dec l hr hp

/-! ### The query -/

theorem splitAll_join {c : Char} : ∀ {l : List (List Char)}, l ≠ [] → (∀ s ∈ l, c ∉ s) → Text.splitAll c (joinWith [c] l) = l
  | [], h, _ => absurd rfl h
  | [s], _, hs => Text.splitAll_none (hs s (by simp))
  | s :: s' :: l, _, hs => by
    show Text.splitAll c (s ++ [c] ++ joinWith [c] (s' :: l)) = _
    rw [List.append_assoc]
    show Text.splitAll c (s ++ c :: joinWith [c] (s' :: l)) = _
    rw [Text.splitAll_append (hs s (by simp)), splitAll_join (by simp) fun x hx => hs x (by simp [hx])]

theorem joinWith_mem {sep : List Char} {ch : Char} : ∀ {l : List (List Char)}, ch ∈ joinWith sep l → ch ∈ sep ∨ ∃ s ∈ l, ch ∈ s
  | [], h => by cases h
  | [s], h => .inr ⟨s, by simp, h⟩
  | s :: s' :: l, h => by
    have h : ch ∈ s ++ sep ++ joinWith sep (s' :: l) := h
    rcases List.mem_append.1 h with h | h
    · rcases List.mem_append.1 h with h | h
      · exact .inr ⟨s, by simp, h⟩
      · exact .inl h
    · rcases joinWith_mem h with h | ⟨x, hx, h⟩
      · exact .inl h
      · exact .inr ⟨x, by simp [hx], h⟩

theorem splitEq_append {a b : List Char} (ha : '=' ∉ a) : SiApi.splitEq (a ++ '=' :: b) = (a, b) := by
  induction a with
  | nil => simp [SiApi.splitEq]
  | cons x a ih =>
    simp only [List.mem_cons, not_or] at ha
    rw [List.cons_append, SiApi.splitEq, if_neg (fun h => ha.1 h.symm), ih ha.2]

/-- What is assumed of unescaping: text without escapes stays as it is. -/
def Unescapes (un : List Char → List Char) : Prop := ∀ s, '%' ∉ s → '+' ∉ s → un s = s

/-- Characters without a meaning in a query. -/
def Quiet (s : List Char) : Prop := ∀ c ∈ s, c ≠ '&' ∧ c ≠ '%' ∧ c ≠ '+'

theorem parseQuery_api {un : List Char → List Char} (hun : Unescapes un) {g m : List Char} {guid : Bytes}
    (hg : RvServer.parseGuid g = some guid) (hgq : Quiet g) (hm : Quiet m) :
    SiApi.parseQuery un ("serviceinfo_api_version=1&device_guid=".toList ++ g ++ "&modules=".toList ++ m) =
      some ⟨1, guid, (Text.splitAll ',' m).map SiModule.fromStr⟩ := by
  have hq : "serviceinfo_api_version=1&device_guid=".toList ++ g ++ "&modules=".toList ++ m =
      ("serviceinfo_api_version".toList ++ '=' :: "1".toList) ++ '&' :: (("device_guid".toList ++ '=' :: g) ++ '&' ::
        ("modules".toList ++ '=' :: m)) := by
    have e1 : "serviceinfo_api_version=1&device_guid=".toList =
        ("serviceinfo_api_version".toList ++ '=' :: "1".toList) ++ '&' :: "device_guid".toList ++ ['='] := by decide
    have e2 : "&modules=".toList = '&' :: "modules".toList ++ ['='] := by decide
    rw [e1, e2]
    simp only [List.append_assoc, List.cons_append, List.nil_append]
  have n2 : '&' ∉ "device_guid".toList ++ '=' :: g := by
    simp only [List.mem_append, List.mem_cons, not_or]
    exact ⟨by decide, by decide, fun h => (hgq _ h).1 rfl⟩
  have n3 : '&' ∉ "modules".toList ++ '=' :: m := by
    simp only [List.mem_append, List.mem_cons, not_or]
    exact ⟨by decide, by decide, fun h => (hm _ h).1 rfl⟩
  have hp : SiApi.pairs un ("serviceinfo_api_version=1&device_guid=".toList ++ g ++ "&modules=".toList ++ m) =
      [("serviceinfo_api_version".toList, "1".toList), ("device_guid".toList, g), ("modules".toList, m)] := by
    unfold SiApi.pairs
    rw [hq, Text.splitAll_append (by decide), Text.splitAll_append n2, Text.splitAll_none n3]
    have f : ∀ a b : List Char, (!(a ++ '=' :: b).isEmpty) = true := by
      intro a b
      cases a <;> rfl
    rw [List.filter_cons, if_pos (f _ _), List.filter_cons, if_pos (f _ _), List.filter_cons, if_pos (f _ _), List.filter_nil]
    simp only [List.map_cons, List.map_nil]
    rw [splitEq_append (by decide), splitEq_append (by decide), splitEq_append (by decide)]
    simp only
    rw [hun "serviceinfo_api_version".toList (by decide) (by decide), hun "1".toList (by decide) (by decide),
      hun "device_guid".toList (by decide) (by decide), hun "modules".toList (by decide) (by decide), hun g (fun h => (hgq _ h).2.1 rfl) (fun h => (hgq _ h).2.2 rfl),
      hun m (fun h => (hm _ h).2.1 rfl) (fun h => (hm _ h).2.2 rfl)]
  have f1 : SiApi.fieldOf [("serviceinfo_api_version".toList, "1".toList), ("device_guid".toList, g), ("modules".toList, m)]
      "serviceinfo_api_version".toList = some "1".toList := by
    unfold SiApi.fieldOf
    rw [List.filter_cons, if_pos (by decide), List.filter_cons, if_neg (by simp), List.filter_cons, if_neg (by simp),
      List.filter_nil]
  have f2 : SiApi.fieldOf [("serviceinfo_api_version".toList, "1".toList), ("device_guid".toList, g), ("modules".toList, m)]
      "device_guid".toList = some g := by
    unfold SiApi.fieldOf
    rw [List.filter_cons, if_neg (by decide), List.filter_cons, if_pos (by simp), List.filter_cons, if_neg (by simp),
      List.filter_nil]
  have f3 : SiApi.fieldOf [("serviceinfo_api_version".toList, "1".toList), ("device_guid".toList, g), ("modules".toList, m)]
      "modules".toList = some m := by
    unfold SiApi.fieldOf
    rw [List.filter_cons, if_neg (by decide), List.filter_cons, if_neg (by simp), List.filter_cons, if_pos (by simp),
      List.filter_nil]
  have f4 : Text.parseU32 "1".toList = some 1 := by decide
  unfold SiApi.parseQuery
  simp only [hp, f1, f2, f3, f4, hg]

/-! ### Extra commands for one module -/

/-- All instructions to a module. -/
def ofModule (m : SiModule) (l : List Item) : List Item := l.filter fun x => x.1 = m

theorem ofModule_append (m : SiModule) (a b : List Item) : ofModule m (a ++ b) = ofModule m a ++ ofModule m b := by
  simp [ofModule]

/-- Keys and values as instructions to a module. -/
def tagged (m : SiModule) (l : List (List Char × Val)) : List Item := l.map fun x => (m, x.1, x.2)

/-- What the builder holds for a module. -/
structure Holds (m : SiModule) (b : SiApi.Builder) (l : List (List Char × Val)) : Prop where
  items : ofModule m (b.extra.getD []) = if l = [] then [] else (m, "active".toList, .bool true) :: tagged m l
  enabled : m ∈ b.enabled ↔ l ≠ []

theorem holds_empty (m : SiModule) : Holds m {} [] := ⟨rfl, by simp⟩

theorem holds_add {m : SiModule} {b : SiApi.Builder} {l : List (List Char × Val)} {k : List Char} {v : Val} (h : Holds m b l) :
    Holds m (SiApi.addExtra b m k v) (l ++ [(k, v)]) := by
  obtain ⟨h1, h2⟩ := h
  unfold SiApi.addExtra
  split
  · next hm =>
    have hl := h2.1 hm
    refine ⟨?_, by simp [hm]⟩
    show ofModule m (b.extra.getD [] ++ [(m, k, v)]) = _
    rw [ofModule_append, h1, if_neg hl, if_neg (by simp)]
    simp [ofModule, tagged]
  · next hm =>
    have hl : l = [] := by
      by_contra hl
      exact hm (h2.2 hl)
    subst hl
    refine ⟨?_, by simp⟩
    show ofModule m (b.extra.getD [] ++ [(m, "active".toList, .bool true), (m, k, v)]) = _
    rw [ofModule_append, h1, if_pos rfl, if_neg (by simp)]
    simp [ofModule, tagged]

theorem holds_other {m m' : SiModule} {b : SiApi.Builder} {l : List (List Char × Val)} {k : List Char} {v : Val} (h : Holds m b l)
    (hm : m' ≠ m) : Holds m (SiApi.addExtra b m' k v) l := by
  obtain ⟨h1, h2⟩ := h
  unfold SiApi.addExtra
  split
  · refine ⟨?_, h2⟩
    show ofModule m (b.extra.getD [] ++ [(m', k, v)]) = _
    rw [ofModule_append, h1]
    simp [ofModule, hm]
  · refine ⟨?_, ?_⟩
    · show ofModule m (b.extra.getD [] ++ [(m', "active".toList, .bool true), (m', k, v)]) = _
      rw [ofModule_append, h1]
      simp [ofModule, hm]
    · show m ∈ m' :: b.enabled ↔ _
      rw [List.mem_cons, ← h2]
      constructor
      · rintro (rfl | h)
        · exact absurd rfl hm
        · exact h
      · exact .inr

theorem holds_addAll {m : SiModule} {b : SiApi.Builder} {l x : List (List Char × Val)} (h : Holds m b l) :
    Holds m (SiApi.addAll b m x) (l ++ x) := by
  induction x generalizing b l with
  | nil => simpa [SiApi.addAll] using h
  | cons y x ih =>
    have : Holds m (SiApi.addAll (SiApi.addExtra b m y.1 y.2) m x) ((l ++ [(y.1, y.2)]) ++ x) := ih (holds_add h)
    simpa [SiApi.addAll] using this

theorem holds_addAll_other {m m' : SiModule} {b : SiApi.Builder} {l x : List (List Char × Val)} (h : Holds m b l) (hm : m' ≠ m) :
    Holds m (SiApi.addAll b m' x) l := by
  induction x generalizing b with
  | nil => exact h
  | cons y x ih => exact ih (holds_other h hm)

theorem holds_part {m : SiModule} {b : SiApi.Builder} {l : List (List Char × Val)} {q : SiApi.Query}
    {x : Option (List (List (List Char × Val)))} (h : Holds m b l) (hm : m ∈ q.modules) :
    Holds m (SiApi.part q m x b) (l ++ (x.getD []).flatten) := by
  unfold SiApi.part
  rw [if_pos hm]
  generalize x.getD [] = x
  induction x generalizing b l with
  | nil => simpa using h
  | cons y x ih =>
    have := ih (b := SiApi.addAll b m y) (l := l ++ y) (holds_addAll h)
    simpa using this

theorem holds_part_other {m m' : SiModule} {b : SiApi.Builder} {l : List (List Char × Val)} {q : SiApi.Query}
    {x : Option (List (List (List Char × Val)))} (h : Holds m b l) (hm : m' ≠ m ∨ m' ∉ q.modules) :
    Holds m (SiApi.part q m' x b) l := by
  unfold SiApi.part
  split
  · next hq =>
    have hm : m' ≠ m := by
      rcases hm with hm | hm
      · exact hm
      · exact absurd hq hm
    generalize x.getD [] = x
    induction x generalizing b with
    | nil => exact h
    | cons y x ih => exact ih (holds_addAll_other h hm)
  · exact h

theorem holds_additional {m : SiModule} {b : SiApi.Builder} {l : List (List Char × Val)} {q : SiApi.Query}
    {x : List (SiModule × List (List Char × List Char))} (h : Holds m b l) (hm : ∀ y ∈ x, y.1 ≠ m) :
    Holds m (SiApi.additional q x b) l := by
  unfold SiApi.additional
  induction x generalizing b with
  | nil => exact h
  | cons y x ih =>
    rw [List.foldl_cons]
    refine ih ?_ fun z hz => hm z (by simp [hz])
    split
    · exact holds_addAll_other h (hm y (by simp))
    · exact h

/-- The modules of the extra commands. -/
def Within (q : SiApi.Query) (b : SiApi.Builder) : Prop := ∀ x ∈ b.extra.getD [], x.1 ∈ q.modules

theorem within_addAll {q : SiApi.Query} {b : SiApi.Builder} {m : SiModule} {x : List (List Char × Val)} (h : Within q b)
    (hm : m ∈ q.modules) : Within q (SiApi.addAll b m x) := by
  induction x generalizing b with
  | nil => exact h
  | cons y x ih =>
    refine ih ?_
    show Within q (SiApi.addExtra b m y.1 y.2)
    unfold SiApi.addExtra
    split
    · intro z hz
      have hz : z ∈ b.extra.getD [] ++ [(m, y.1, y.2)] := hz
      rcases List.mem_append.1 hz with hz | hz
      · exact h z hz
      · simp only [List.mem_singleton] at hz
        rw [hz]
        exact hm
    · intro z hz
      have hz : z ∈ b.extra.getD [] ++ [(m, "active".toList, .bool true), (m, y.1, y.2)] := hz
      rcases List.mem_append.1 hz with hz | hz
      · exact h z hz
      · simp only [List.mem_cons, List.not_mem_nil, or_false] at hz
        rcases hz with rfl | rfl <;> exact hm

theorem within_part {q : SiApi.Query} {b : SiApi.Builder} {m : SiModule} {x : Option (List (List (List Char × Val)))}
    (h : Within q b) : Within q (SiApi.part q m x b) := by
  unfold SiApi.part
  split
  · next hm =>
    generalize x.getD [] = x
    induction x generalizing b with
    | nil => exact h
    | cons y x ih => exact ih (within_addAll h hm)
  · exact h

theorem within_additional {q : SiApi.Query} {b : SiApi.Builder} {x : List (SiModule × List (List Char × List Char))}
    (h : Within q b) : Within q (SiApi.additional q x b) := by
  unfold SiApi.additional
  induction x generalizing b with
  | nil => exact h
  | cons y x ih =>
    rw [List.foldl_cons]
    refine ih ?_
    split
    · next hm => exact within_addAll h hm
    · exact h

/-! ### From extra commands to instructions -/

theorem extraItem_module {x y : Item} (h : extraItem x = some y) : y.1 = x.1 := by
  obtain ⟨m, k, v⟩ := x
  simp only [extraItem] at h
  split at h
  · split at h
    · next s =>
      cases hs : hexDecode s with
      | none => rw [hs] at h; cases h
      | some b => rw [hs] at h; cases h; rfl
    · cases h
  · cases h; rfl

theorem extraItems_module {m : SiModule} {l l' : List Item} (h : extraItems l = some l') :
    extraItems (ofModule m l) = some (ofModule m l') := by
  induction l generalizing l' with
  | nil => cases h; rfl
  | cons x l ih =>
    unfold extraItems at h
    split at h
    · next y t hy ht =>
      cases h
      have hm := extraItem_module hy
      unfold ofModule
      rw [List.filter_cons, List.filter_cons]
      by_cases hx : x.1 = m
      · rw [if_pos (by simpa using hx), if_pos (by simpa [hm] using hx), extraItems, hy]
        rw [show List.filter (fun x => decide (x.1 = m)) l = ofModule m l from rfl, ih ht]
        rfl
      · rw [if_neg (by simpa using hx), if_neg (by simpa [hm] using hx)]
        exact ih ht
    · cases h

theorem extraItems_modules {P : SiModule → Prop} {l l' : List Item} (h : extraItems l = some l') (hl : ∀ x ∈ l, P x.1) :
    ∀ x ∈ l', P x.1 := by
  induction l generalizing l' with
  | nil => cases h; exact hl
  | cons x l ih =>
    unfold extraItems at h
    split at h
    · next y t hy ht =>
      cases h
      intro z hz
      rcases List.mem_cons.1 hz with rfl | hz
      · rw [extraItem_module hy]
        exact hl x (by simp)
      · exact ih ht (fun z hz => hl z (by simp [hz])) z hz
    · cases h

theorem extraItems_append {a b a' b' : List Item} (ha : extraItems a = some a') (hb : extraItems b = some b') :
    extraItems (a ++ b) = some (a' ++ b') := by
  induction a generalizing a' with
  | nil => cases ha; exact hb
  | cons x a ih =>
    unfold extraItems at ha
    split at ha
    · next y t hy ht =>
      cases ha
      rw [List.cons_append, extraItems, hy, ih ht]
      rfl
    · cases ha

theorem extraItems_flatMap {α : Type} {f g : α → List Item} {l : List α} (h : ∀ x ∈ l, extraItems (f x) = some (g x)) :
    extraItems (l.flatMap f) = some (l.flatMap g) := by
  induction l with
  | nil => rfl
  | cons x l ih =>
    rw [List.flatMap_cons, List.flatMap_cons]
    exact extraItems_append (h x (by simp)) (ih fun y hy => h y (by simp [hy]))

theorem splitAfter_segs {α β : Type} (p : β → Bool) (seg : α → List β)
    (hseg : ∀ a, ∃ i x, seg a = i ++ [x] ∧ p x = true ∧ ∀ y ∈ i, p y = false) (l : List α) :
    SiClient.splitAfter p (l.flatMap seg) = (l.map seg, []) := by
  have one : ∀ (i : List β) (x : β) (r : List β), p x = true → (∀ y ∈ i, p y = false) →
      SiClient.splitAfter p (i ++ [x] ++ r) = ((i ++ [x]) :: (SiClient.splitAfter p r).1, (SiClient.splitAfter p r).2) := by
    intro i x r hx hi
    induction i with
    | nil => simp [SiClient.splitAfter, hx]
    | cons y i ih =>
      have ih := ih fun z hz => hi z (by simp [hz])
      rw [List.cons_append, List.cons_append, SiClient.splitAfter, if_neg (by simp [hi y (by simp)]), ih]
  induction l with
  | nil => rfl
  | cons a l ih =>
    obtain ⟨i, x, hs, hx, hi⟩ := hseg a
    rw [List.flatMap_cons, hs, one i x _ hx hi, ih, List.map_cons, hs]

end Verif.SiPipeline
