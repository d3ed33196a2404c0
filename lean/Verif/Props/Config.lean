import Verif.Spec.Config
/-!
C77: configured rendezvous information is what devices and owners read.
-/
namespace Verif.Config
open Verif Verif.Rendezvous

/-! ### Values -/

mutual
theorem same_value : ∀ (y : Yaml) (v : Value), yamlToCbor y = .ok v → Same y v
  | .null, v, h => by cases h; exact .null
  | .bool b, v, h => by cases h; exact .bool b
  | .pos n, v, h => by cases h; exact .pos n
  | .neg n, v, h => by
    simp only [yamlToCbor, Res.ok.injEq] at h
    subst h
    have : (-(n : Int) - 1) = Int.negSucc n := by omega
    rw [this]
    exact .neg n
  | .float n, v, h => by cases h; exact .float n
  | .str n, v, h => by cases h; exact .str n
  | .seq l, v, h => by
    simp only [yamlToCbor] at h
    split at h <;> cases h
    rename_i hl
    exact same_list l _ hl
  | .map l, v, h => by
    simp only [yamlToCbor] at h
    split at h <;> cases h
    rename_i hl
    exact same_pairs l _ hl
  | .tagged _ _, v, h => by cases h

theorem same_list : ∀ (l : List Yaml) (m : List Value), yamlList l = .ok m → Same (.seq l) (.array m)
  | [], m, h => by cases h; exact .seqNil
  | y :: l, m, h => by
    simp only [yamlList] at h
    split at h
    · rename_i hv
      split at h <;> cases h
      rename_i hl
      exact .seqCons (same_value y _ hv) (same_list l _ hl)
    · cases h
    · cases h

theorem same_pairs : ∀ (l : List (Yaml × Yaml)) (m : List (Value × Value)), yamlPairs l = .ok m →
    Same (.map l) (.map m)
  | [], m, h => by cases h; exact .mapNil
  | (k, y) :: l, m, h => by
    simp only [yamlPairs] at h
    split at h
    · rename_i hk
      split at h
      · rename_i hv
        split at h <;> cases h
        rename_i hl
        exact .mapCons (same_value k _ hk) (same_value y _ hv) (same_pairs l _ hl)
      · cases h
    · cases h
end

mutual
theorem plain_value : ∀ (y : Yaml), Plain y → ∃ v, yamlToCbor y = .ok v
  | .null, _ => ⟨_, rfl⟩
  | .bool b, _ => ⟨_, rfl⟩
  | .pos n, _ => ⟨_, rfl⟩
  | .neg n, _ => ⟨_, rfl⟩
  | .float n, _ => ⟨_, rfl⟩
  | .str n, _ => ⟨_, rfl⟩
  | .seq l, h => by
    obtain ⟨m, hm⟩ := plain_list l (by cases h; assumption)
    exact ⟨.array m, by simp only [yamlToCbor, hm]⟩
  | .map l, h => by
    obtain ⟨m, hm⟩ := plain_pairs l (by cases h; assumption) (by cases h; assumption)
    exact ⟨.map m, by simp only [yamlToCbor, hm]⟩
  | .tagged _ _, h => by cases h

theorem plain_list : ∀ (l : List Yaml), (∀ y ∈ l, Plain y) → ∃ m, yamlList l = .ok m
  | [], _ => ⟨[], rfl⟩
  | y :: l, h => by
    obtain ⟨v, hv⟩ := plain_value y (h y (List.mem_cons_self ..))
    obtain ⟨m, hm⟩ := plain_list l (fun z hz => h z (List.mem_cons_of_mem _ hz))
    exact ⟨v :: m, by simp only [yamlList, hv, hm]⟩

theorem plain_pairs : ∀ (l : List (Yaml × Yaml)), (∀ e ∈ l, Plain e.1) → (∀ e ∈ l, Plain e.2) →
    ∃ m, yamlPairs l = .ok m
  | [], _, _ => ⟨[], rfl⟩
  | (k, y) :: l, h, h' => by
    obtain ⟨c, hc⟩ := plain_value k (h _ (List.mem_cons_self ..))
    obtain ⟨v, hv⟩ := plain_value y (h' _ (List.mem_cons_self ..))
    obtain ⟨m, hm⟩ := plain_pairs l (fun z hz => h z (List.mem_cons_of_mem _ hz))
      (fun z hz => h' z (List.mem_cons_of_mem _ hz))
    exact ⟨(c, v) :: m, by simp only [yamlPairs, hc, hv, hm]⟩
end

theorem same_plain {y : Yaml} {v : Value} (h : Same y v) : Plain y := by
  induction h with
  | null => exact .null
  | bool b => exact .bool b
  | pos n => exact .pos n
  | neg n => exact .neg n
  | float f => exact .float f
  | str s => exact .str s
  | seqNil => exact .seq _ nofun
  | seqCons _ _ h1 h2 =>
    cases h2 with
    | seq _ h2 =>
      refine .seq _ fun z hz => ?_
      rcases List.mem_cons.1 hz with rfl | hz
      · exact h1
      · exact h2 z hz
  | mapNil => exact .map _ nofun nofun
  | mapCons _ _ _ h1 h2 h3 =>
    cases h3 with
    | map _ h3 h4 =>
      refine .map _ (fun z hz => ?_) (fun z hz => ?_)
      · rcases List.mem_cons.1 hz with rfl | hz
        · exact h1
        · exact h3 z hz
      · rcases List.mem_cons.1 hz with rfl | hz
        · exact h2
        · exact h4 z hz

/-- **C77** (values): a configured value is converted exactly if it has no tag, and then to the same data. -/
theorem C77_converted (y : Yaml) :
    (∀ v, yamlToCbor y = .ok v → Same y v) ∧ ((∃ v, yamlToCbor y = .ok v) ↔ Plain y) :=
  ⟨same_value y, fun ⟨_, h⟩ => same_plain (same_value y _ h), plain_value y⟩

/-- A tag inside a mapping is not refused: the program aborts (`unwrap`). -/
theorem C77_tag_violated : ∃ y, yamlToCbor y = .panic :=
  ⟨.map [(.str "a", .tagged "!x" .null)], rfl⟩

/-! ### Names -/

theorem names_disjoint {l : List Char} {a b : Var} (ha : l ∈ names a) (hb : l ∈ names b) : a = b := by
  have : ∀ l ∈ names a, l ∈ names b → a = b := by
    cases a <;> cases b <;> first | (intros; rfl) | decide +kernel
  exact this l ha hb

theorem ite_pick {α : Type} {c : Prop} [Decidable c] {a b r : α} (h : (if c then a else b) = r) :
    c ∧ a = r ∨ b = r := by
  by_cases hc : c
  · exact .inl ⟨hc, by rw [if_pos hc] at h; exact h⟩
  · exact .inr (by rw [if_neg hc] at h; exact h)

theorem mem_one {α : Type} {l a : α} (h : l = a) : l ∈ [a] := by rw [h]; exact List.mem_cons_self ..

theorem mem_two {α : Type} {l a b : α} (h : l = a ∨ l = b) : l ∈ [a, b] := by
  rcases h with h | h
  · rw [h]; exact List.mem_cons_self ..
  · exact List.mem_cons_of_mem _ (mem_one h)

theorem mem_three {α : Type} {l a b c : α} (h : l = a ∨ l = b ∨ l = c) : l ∈ [a, b, c] := by
  rcases h with h | h
  · rw [h]; exact List.mem_cons_self ..
  · exact List.mem_cons_of_mem _ (mem_two h)

theorem varOfLower_eq (l : List Char) (var : Var) : varOfLower l = .ok var ↔ l ∈ names var := by
  constructor
  · intro hr
    unfold varOfLower at hr
    iterate 15
      rcases ite_pick hr with ⟨hc, hr⟩ | hr
      · cases hr
        first | exact mem_two hc | exact mem_three hc | exact mem_one hc
    cases hr
  · have : ∀ l ∈ names var, varOfLower l = .ok var := by cases var <;> decide +kernel
    exact this l

theorem varFromStr_eq (s : String) (var : Var) : varFromStr s = .ok var ↔ lower s ∈ names var := varOfLower_eq _ _

theorem protoName_inj {a b : Proto} (h : protoName a = protoName b) : a = b := by
  revert h
  cases a <;> cases b <;> first | (intros; rfl) | decide +kernel

theorem protoFromStr_eq (s : String) (p : Proto) : protoFromStr s = .ok p ↔ lower s = protoName p := by
  unfold protoFromStr
  generalize lower s = l
  constructor
  · intro hr
    unfold protoOfLower at hr
    iterate 7
      rcases ite_pick hr with ⟨hc, hr⟩ | hr
      · cases hr
        exact hc
    cases hr
  · rintro rfl
    cases p <;> decide +kernel

/-! ### Loading -/

variable {L : Lib}

/-- What a loaded value is. -/
def Conf (L : Lib) : Var → Yaml → Value → Prop
  | .deviceOnly, y, v | .ownerOnly, y, v | .userInput, y, v | .bypass, y, v => Plain y ∧ v = .null
  | .devicePort, y, v | .ownerPort, y, v | .delaysec, y, v =>
    (∃ n : Nat, y = .pos n ∧ v = .int n) ∨ ∃ n, y = .neg n ∧ v = .int (Int.negSucc n)
  | .dns, y, v | .wifiSsid, y, v | .wifiPw, y, v => ∃ s, y = .str s ∧ v = .text s
  | .protocol, y, v => ∃ s p, y = .str s ∧ lower s = protoName p ∧ v = .int (protoNumber p)
  | .ipAddress, y, v => ∃ s b, y = .str s ∧ L.parseIp s = some b ∧ v = .bytes b
  | .serverCertHash, _, _ | .caCertHash, _, _ | .medium, _, _ => False

theorem human_number {y : Yaml} {c v : Value} (hc : Same y c)
    (h : (match c with | .int i => Res.ok (Value.int i) | _ => .err Fail.value) = .ok v) :
    (∃ n : Nat, y = .pos n ∧ v = .int n) ∨ ∃ n, y = .neg n ∧ v = .int (Int.negSucc n) := by
  cases hc <;> cases h
  · exact .inl ⟨_, rfl, rfl⟩
  · exact .inr ⟨_, rfl, rfl⟩

theorem human_text {y : Yaml} {c v : Value} (hc : Same y c)
    (h : (match c with | .text i => Res.ok (Value.text i) | _ => .err Fail.value) = .ok v) :
    ∃ s, y = .str s ∧ v = .text s := by
  cases hc <;> cases h
  exact ⟨_, rfl, rfl⟩

theorem human_conf {var : Var} {y : Yaml} {c v : Value} (hc : yamlToCbor y = .ok c)
    (h : humanToMachine L var c = .ok v) : Conf L var y v := by
  have hs := same_value y c hc
  have hp := same_plain hs
  cases var <;> simp only [humanToMachine] at h <;> simp only [Conf]
  case deviceOnly | ownerOnly | userInput | bypass => cases h; exact ⟨hp, rfl⟩
  case devicePort | ownerPort | delaysec => exact human_number hs h
  case dns | wifiSsid | wifiPw => exact human_text hs h
  case serverCertHash | caCertHash | medium => cases h
  case protocol =>
    cases hs <;> try (cases h; done)
    rename_i s
    simp only at h
    split at h <;> cases h
    rename_i p hp
    exact ⟨s, p, rfl, (protoFromStr_eq s p).1 hp, rfl⟩
  case ipAddress =>
    cases hs <;> try (cases h; done)
    rename_i s
    simp only at h
    split at h <;> cases h
    rename_i b hb
    exact ⟨s, b, rfl, hb, rfl⟩

theorem human_fits {var : Var} {y : Yaml} (h : Fits L.parseIp var y) :
    ∃ c v, yamlToCbor y = .ok c ∧ humanToMachine L var c = .ok v := by
  cases var <;> simp only [Fits] at h
  case deviceOnly | ownerOnly | userInput | bypass =>
    obtain ⟨c, hc⟩ := plain_value y h
    exact ⟨c, .null, hc, rfl⟩
  case devicePort | ownerPort | delaysec =>
    rcases h with ⟨n, rfl⟩ | ⟨n, rfl⟩
    · exact ⟨_, _, rfl, rfl⟩
    · exact ⟨_, _, rfl, rfl⟩
  case dns | wifiSsid | wifiPw =>
    obtain ⟨s, rfl⟩ := h
    exact ⟨_, _, rfl, rfl⟩
  case protocol =>
    obtain ⟨s, p, rfl, hp⟩ := h
    exact ⟨_, _, rfl, by simp only [humanToMachine, (protoFromStr_eq s p).2 hp]; rfl⟩
  case ipAddress =>
    obtain ⟨s, b, rfl, hb⟩ := h
    exact ⟨_, _, rfl, by simp only [humanToMachine, hb]; rfl⟩

theorem conf_fits {var : Var} {y : Yaml} {v : Value} (h : Conf L var y v) : Fits L.parseIp var y := by
  cases var <;> simp only [Conf] at h <;> simp only [Fits]
  case deviceOnly | ownerOnly | userInput | bypass => exact h.1
  case devicePort | ownerPort | delaysec =>
    rcases h with ⟨n, rfl, _⟩ | ⟨n, rfl, _⟩
    · exact .inl ⟨n, rfl⟩
    · exact .inr ⟨n, rfl⟩
  case dns | wifiSsid | wifiPw =>
    obtain ⟨s, rfl, _⟩ := h
    exact ⟨s, rfl⟩
  case protocol =>
    obtain ⟨s, p, rfl, hp, _⟩ := h
    exact ⟨s, p, rfl, hp⟩
  case ipAddress =>
    obtain ⟨s, b, rfl, hb, _⟩ := h
    exact ⟨s, b, rfl, hb⟩

/-- A loaded entry before it is encoded. -/
def Named (L : Lib) (e : String × Yaml) (x : Var × Value) : Prop := lower e.1 ∈ names x.1 ∧ Conf L x.1 e.2 x.2

theorem loadDirective_named (cfg : Configured) (d : List (Var × Value)) (h : loadDirective L cfg = .ok d) :
    List.Forall₂ (Named L) cfg d := by
  induction cfg generalizing d with
  | nil => cases h; exact .nil
  | cons e cfg ih =>
    obtain ⟨k, y⟩ := e
    simp only [loadDirective] at h
    obtain ⟨var, h1, h⟩ := Res.bind_eq_ok.1 h
    obtain ⟨c, h2, h⟩ := Res.bind_eq_ok.1 h
    obtain ⟨v, h3, h⟩ := Res.bind_eq_ok.1 h
    obtain ⟨t, h4, h⟩ := Res.bind_eq_ok.1 h
    cases h
    exact .cons ⟨(varFromStr_eq k var).1 h1, human_conf h2 h3⟩ (ih t h4)

theorem loadDirective_valid (cfg : Configured) (h : ∀ e ∈ cfg, Valid L.parseIp e) :
    ∃ d, loadDirective L cfg = .ok d := by
  induction cfg with
  | nil => exact ⟨[], rfl⟩
  | cons e cfg ih =>
    obtain ⟨k, y⟩ := e
    obtain ⟨t, ht⟩ := ih fun e he => h e (List.mem_cons_of_mem _ he)
    obtain ⟨var, h1, h2⟩ := h (k, y) (List.mem_cons_self ..)
    obtain ⟨c, v, h3, h4⟩ := human_fits h2
    refine ⟨(var, v) :: t, ?_⟩
    simp only [loadDirective, (varFromStr_eq k var).2 h1, h3, h4, ht, Res.bind_ok, Res.pure_eq]

/-- A loaded entry. -/
def Loaded (L : Lib) (e : String × Yaml) (x : Var × Bytes) : Prop :=
  lower e.1 ∈ names x.1 ∧ ∃ v, Conf L x.1 e.2 v ∧ L.enc v = some x.2

theorem encode_loaded (cfg : Configured) (e : List (Var × Value)) (h : List.Forall₂ (Named L) cfg e) (d : Directive)
    (hd : encodeDirective L e = .ok d) : List.Forall₂ (Loaded L) cfg d := by
  induction h generalizing d with
  | nil => cases hd; exact .nil
  | @cons a x cfg e hx _ ih =>
    obtain ⟨var, v⟩ := x
    simp only [encodeDirective] at hd
    split at hd
    · cases hd
    · rename_i b hb
      obtain ⟨t, ht, hd⟩ := Res.bind_eq_ok.1 hd
      cases hd
      exact .cons ⟨hx.1, v, hx.2, hb⟩ (ih t ht)

theorem load_loaded (cfgs : List Configured) (ds : List Directive) (h : load L cfgs = .ok ds) :
    List.Forall₂ (fun cfg d => List.Forall₂ (Loaded L) cfg d) cfgs ds := by
  unfold load at h
  obtain ⟨es, h1, h2⟩ := Res.bind_eq_ok.1 h
  clear h
  induction cfgs generalizing es ds with
  | nil => cases h1; cases h2; exact .nil
  | cons cfg cfgs ih =>
    simp only [loadEach] at h1
    obtain ⟨e, h3, h1⟩ := Res.bind_eq_ok.1 h1
    obtain ⟨t, h4, h1⟩ := Res.bind_eq_ok.1 h1
    cases h1
    simp only [newInfo] at h2
    obtain ⟨d, h5, h2⟩ := Res.bind_eq_ok.1 h2
    obtain ⟨t', h6, h2⟩ := Res.bind_eq_ok.1 h2
    cases h2
    exact .cons (encode_loaded cfg e (loadDirective_named cfg e h3) d h5) (ih _ t h4 h6)

theorem encode_total (henc : ∀ v, ∃ b, L.enc v = some b) (e : List (Var × Value)) :
    ∃ d, encodeDirective L e = .ok d := by
  induction e with
  | nil => exact ⟨[], rfl⟩
  | cons x e ih =>
    obtain ⟨var, v⟩ := x
    obtain ⟨t, ht⟩ := ih
    obtain ⟨b, hb⟩ := henc v
    exact ⟨(var, b) :: t, by simp only [encodeDirective, hb, ht, Res.bind_ok, Res.pure_eq]⟩

/-- **C77** (acceptance): provided values can be encoded, the configuration is accepted exactly if every entry has a known
name and a value that fits it. -/
theorem C77_accepted (henc : ∀ v, ∃ b, L.enc v = some b) (cfgs : List Configured) :
    (∃ ds, load L cfgs = .ok ds) ↔ ∀ cfg ∈ cfgs, ∀ e ∈ cfg, Valid L.parseIp e := by
  constructor
  · rintro ⟨ds, h⟩ cfg hcfg e he
    have hl := load_loaded cfgs ds h
    obtain ⟨d, _, hd⟩ := forall₂_left hl hcfg
    obtain ⟨x, _, hx⟩ := forall₂_left hd he
    obtain ⟨h1, v, h2, _⟩ := hx
    exact ⟨x.1, h1, conf_fits h2⟩
  · intro h
    have : ∃ es, loadEach L cfgs = .ok es := by
      induction cfgs with
      | nil => exact ⟨[], rfl⟩
      | cons cfg cfgs ih =>
        obtain ⟨t, ht⟩ := ih fun c hc => h c (List.mem_cons_of_mem _ hc)
        obtain ⟨e, he⟩ := loadDirective_valid (L := L) cfg (h cfg (List.mem_cons_self ..))
        exact ⟨e :: t, by simp only [loadEach, he, ht, Res.bind_ok, Res.pure_eq]⟩
    obtain ⟨es, hes⟩ := this
    have : ∃ ds, newInfo L es = .ok ds := by
      clear hes
      induction es with
      | nil => exact ⟨[], rfl⟩
      | cons e es ih =>
        obtain ⟨t, ht⟩ := ih
        obtain ⟨d, hd⟩ := encode_total henc e
        exact ⟨d :: t, by simp only [newInfo, hd, ht, Res.bind_ok, Res.pure_eq]⟩
    obtain ⟨ds, hds⟩ := this
    exact ⟨ds, by simp only [load, hes, hds, Res.bind_ok]⟩
where
  forall₂_left {α β : Type} {R : α → β → Prop} {l : List α} {m : List β} (h : List.Forall₂ R l m) {a : α} (ha : a ∈ l) :
      ∃ b, b ∈ m ∧ R a b := by
    induction h with
    | nil => cases ha
    | cons hr _ ih =>
      rcases List.mem_cons.1 ha with rfl | ha
      · exact ⟨_, List.mem_cons_self .., hr⟩
      · obtain ⟨b, hb, hr'⟩ := ih ha
        exact ⟨b, List.mem_cons_of_mem _ hb, hr'⟩

/-! ### Reading back -/

theorem conf_dec (hL : L.Good) {var : Var} {y : Yaml} {v : Value} {b : Bytes} (h : Conf L var y v)
    (hb : L.enc v = some b) : L.dec b = some v := by
  cases var <;> simp only [Conf] at h
  case deviceOnly | ownerOnly | userInput | bypass => obtain ⟨_, rfl⟩ := h; exact hL.null b hb
  case devicePort | ownerPort | delaysec =>
    rcases h with ⟨n, _, rfl⟩ | ⟨n, _, rfl⟩ <;> exact hL.int _ b hb
  case dns | wifiSsid | wifiPw => obtain ⟨s, _, rfl⟩ := h; exact hL.text _ b hb
  case protocol => obtain ⟨s, p, _, _, rfl⟩ := h; exact hL.int _ b hb
  case ipAddress => obtain ⟨s, x, _, _, rfl⟩ := h; exact hL.bytes _ b hb

/-- A configured value of a variable and its bytes. -/
def Kept (L : Lib) (var : Var) (y : Yaml) (b : Bytes) : Prop := ∃ v, Conf L var y v ∧ L.dec b = some v

/-- The bytes of a variable in a directive. -/
def raws (var : Var) (d : Directive) : List Bytes := d.filterMap fun e => if e.1 = var then some e.2 else none

theorem kept (hL : L.Good) (var : Var) {cfg : Configured} {d : Directive} (h : List.Forall₂ (Loaded L) cfg d) :
    List.Forall₂ (Kept L var) (valuesOf var cfg) (raws var d) := by
  induction h with
  | nil => exact .nil
  | @cons e x cfg d hx _ ih =>
    obtain ⟨hn, v, hc, hb⟩ := hx
    unfold valuesOf raws
    by_cases hv : x.1 = var
    · subst hv
      rw [List.filterMap_cons_some (b := e.2) (by rw [if_pos hn]),
        List.filterMap_cons_some (b := x.2) (by rw [if_pos rfl])]
      exact .cons ⟨v, hc, conf_dec hL hc hb⟩ ih
    · have hne : lower e.1 ∉ names var := fun hm => hv (names_disjoint hn hm)
      rw [List.filterMap_cons_none (by rw [if_neg hne]), List.filterMap_cons_none (by rw [if_neg hv])]
      exact ih

theorem readAll_raws {α : Type} (D : Dec) (f : D.V → Option α) (var : Var) (d : Directive) :
    readAll D f var d = (raws var d).filterMap fun b => (D.value b).bind f := by
  unfold readAll raws
  rw [List.filterMap_filterMap]
  congr 1
  funext e
  by_cases h : e.1 = var
  · rw [if_pos h, if_pos h]; rfl
  · rw [if_neg h, if_neg h]; rfl

theorem has_raws (var : Var) (d : Directive) : Has d var ↔ raws var d ≠ [] := by
  unfold raws
  rw [Ne, List.filterMap_eq_nil_iff]
  constructor
  · rintro ⟨b, hb⟩ h
    have := h _ hb
    simp at this
  · intro h
    apply Classical.byContradiction
    intro hn
    refine h fun e he => if_neg fun hv => hn ⟨e.2, ?_⟩
    rw [← hv]
    exact he

theorem reads {α : Type} {R : Yaml → Bytes → Prop} {ys : List Yaml} {bs : List Bytes} (g : Bytes → Option α)
    (h : List.Forall₂ R ys bs) (hg : ∀ y b, R y b → b ∈ bs → ∃ z, g b = some z) :
    List.Forall₂ (fun y z => ∃ b, R y b ∧ g b = some z) ys (bs.filterMap g) := by
  induction h with
  | nil => exact .nil
  | @cons y b ys bs hr _ ih =>
    obtain ⟨z, hz⟩ := hg y b hr (List.mem_cons_self ..)
    rw [List.filterMap_cons_some hz]
    exact .cons ⟨b, hr, hz⟩ (ih fun y b hr hb => hg y b hr (List.mem_cons_of_mem _ hb))

theorem lasts {α β : Type} {Q : α → β → Prop} {xs : List α} {zs : List β} (h : List.Forall₂ Q xs zs) :
    (xs.getLast? = none ∧ zs.getLast? = none) ∨ ∃ x z, xs.getLast? = some x ∧ zs.getLast? = some z ∧ Q x z := by
  induction h with
  | nil => exact .inl ⟨rfl, rfl⟩
  | @cons x z xs zs hq _ ih =>
    right
    rcases ih with ⟨h1, h2⟩ | ⟨a, b, h1, h2, h3⟩
    · rw [List.getLast?_eq_none_iff] at h1 h2
      subst h1 h2
      exact ⟨x, z, rfl, rfl, hq⟩
    · refine ⟨a, b, ?_, ?_, h3⟩
      · rw [List.getLast?_cons, h1]; rfl
      · rw [List.getLast?_cons, h2]; rfl

theorem valueOf_none {var : Var} {cfg : Configured} : valueOf var cfg = none ↔ valuesOf var cfg = [] :=
  List.getLast?_eq_none_iff

theorem forall₂_nil {α β : Type} {Q : α → β → Prop} {xs : List α} {zs : List β} (h : List.Forall₂ Q xs zs) :
    xs = [] ↔ zs = [] := by
  cases h <;> simp

theorem has_values (hL : L.Good) (var : Var) {cfg : Configured} {d : Directive} (h : List.Forall₂ (Loaded L) cfg d) :
    Has d var ↔ (valueOf var cfg).isSome := by
  rw [has_raws, Ne, ← forall₂_nil (kept hL var h), ← valueOf_none]
  cases valueOf var cfg <;> simp

/-- A text variable. -/
theorem texts (hL : L.Good) (var : Var) (hv : ∀ y v, Conf L var y v → ∃ s, y = .str s ∧ v = .text s)
    {cfg : Configured} {d : Directive} (h : List.Forall₂ (Loaded L) cfg d) :
    valueOf var cfg = (readLast (decoders L) (decoders L).text var d).map .str := by
  have hk := kept hL var h
  have := reads (fun b => (L.dec b).bind (decoders L).text) hk (fun y b hr _ => by
    obtain ⟨v, hc, hd⟩ := hr
    obtain ⟨s, rfl, rfl⟩ := hv y v hc
    exact ⟨s, by rw [hd]; rfl⟩)
  unfold valueOf readLast
  rw [readAll_raws]
  rcases lasts this with ⟨h1, h2⟩ | ⟨y, s, h1, h2, b, ⟨v, hc, hd⟩, hs⟩
  · rw [h1]
    erw [h2]
    rfl
  · obtain ⟨t, rfl, rfl⟩ := hv y v hc
    rw [h1]
    erw [h2]
    rw [hd] at hs
    cases hs
    rfl

/-- A number that was read. -/
theorem number_read {y : Yaml} {v : Value} {n : Nat}
    (hc : (∃ n : Nat, y = .pos n ∧ v = .int n) ∨ ∃ n, y = .neg n ∧ v = .int (Int.negSucc n))
    (h : (decoders L).u32 v = some n) : y = .pos n := by
  rcases hc with ⟨m, rfl, rfl⟩ | ⟨m, rfl, rfl⟩
  · simp only [decoders] at h
    split at h
    · cases h; simp
    · cases h
  · simp only [decoders] at h
    split at h
    · rename_i hm
      exact absurd hm.1 (by omega)
    · cases h

theorem numbers (hL : L.Good) (var : Var)
    (hv : ∀ y v, Conf L var y v → (∃ n : Nat, y = .pos n ∧ v = .int n) ∨ ∃ n, y = .neg n ∧ v = .int (Int.negSucc n))
    {cfg : Configured} {d : Directive} (h : List.Forall₂ (Loaded L) cfg d)
    (hr : ∀ b ∈ raws var d, ∃ n, (L.dec b).bind (decoders L).u32 = some n) :
    valueOf var cfg = (readLast (decoders L) (decoders L).u32 var d).map .pos := by
  have hk := kept hL var h
  have := reads (fun b => (L.dec b).bind (decoders L).u32) hk (fun y b _ hb => hr b hb)
  unfold valueOf readLast
  rw [readAll_raws]
  rcases lasts this with ⟨h1, h2⟩ | ⟨y, s, h1, h2, b, ⟨v, hc, hd⟩, hs⟩
  · rw [h1]
    erw [h2]
    rfl
  · rw [hd] at hs
    rw [h1, number_read (hv y v hc) hs]
    erw [h2]
    rfl

theorem proto_number (p : Proto) : (decoders L).proto (.int (protoNumber p)) = some p := by
  cases p <;> rfl

theorem protocols (hL : L.Good) {cfg : Configured} {d : Directive} (h : List.Forall₂ (Loaded L) cfg d) :
    (valueOf .protocol cfg = none ∧ readLast (decoders L) (decoders L).proto .protocol d = none) ∨
    ∃ s p, valueOf .protocol cfg = some (.str s) ∧ lower s = protoName p ∧
      readLast (decoders L) (decoders L).proto .protocol d = some p := by
  have hk := kept hL .protocol h
  have := reads (fun b => (L.dec b).bind (decoders L).proto) hk (fun y b hr _ => by
    obtain ⟨v, hc, hd⟩ := hr
    obtain ⟨s, p, rfl, hp, rfl⟩ := hc
    exact ⟨p, by rw [hd]; exact proto_number p⟩)
  unfold valueOf readLast
  rw [readAll_raws]
  rcases lasts this with ⟨h1, h2⟩ | ⟨y, q, h1, h2, b, ⟨v, hc, hd⟩, hs⟩
  · exact .inl ⟨h1, h2⟩
  · right
    obtain ⟨s, p, rfl, hp, rfl⟩ := hc
    rw [hd] at hs
    have : p = q := Option.some.inj ((proto_number p).symm.trans hs)
    subst this
    exact ⟨s, p, h1, hp, h2⟩

theorem addresses (hL : L.Good) {cfg : Configured} {d : Directive} (h : List.Forall₂ (Loaded L) cfg d) :
    List.Forall₂ (fun y b => ∃ s, y = .str s ∧ L.parseIp s = some b) (valuesOf .ipAddress cfg)
      (readAll (decoders L) (decoders L).ip .ipAddress d) := by
  have hk := kept hL .ipAddress h
  have hip : ∀ s x, L.parseIp s = some x → (decoders L).ip (.bytes x) = some x := fun s x hx => by
    simp only [decoders]
    exact if_pos (hL.ip s x hx)
  have := reads (fun b => (L.dec b).bind (decoders L).ip) hk (fun y b hr _ => by
    obtain ⟨v, hc, hd⟩ := hr
    obtain ⟨s, x, rfl, hx, rfl⟩ := hc
    exact ⟨x, by rw [hd]; exact hip s x hx⟩)
  rw [readAll_raws]
  refine this.imp ?_
  rintro y x ⟨b, ⟨v, hc, hd⟩, hs⟩
  obtain ⟨s, z, rfl, hz, rfl⟩ := hc
  rw [hd] at hs
  have : z = x := Option.some.inj ((hip s z hz).symm.trans hs)
  subst this
  exact ⟨s, rfl, hz⟩

/-- Nothing is read for a variable that cannot be configured. -/
theorem never (hL : L.Good) {α : Type} (var : Var) (hv : ∀ y v, ¬Conf L var y v) (f : (decoders L).V → Option α)
    {cfg : Configured} {d : Directive} (h : List.Forall₂ (Loaded L) cfg d) :
    readLast (decoders L) f var d = none := by
  have hk := kept hL var h
  have : raws var d = [] := by
    cases hr : raws var d with
    | nil => rfl
    | cons b bs =>
      rw [hr] at hk
      generalize valuesOf var cfg = ys at hk
      cases hk with
      | cons hh _ =>
        obtain ⟨v, hc, _⟩ := hh
        exact absurd hc (hv _ _)
  unfold readLast
  rw [readAll_raws, this]
  rfl

/-- Every port and delay of a directive that was interpreted had been read. -/
theorem loop_reads (D : Dec) (side : Side) (d : Directive) : ∀ (acc r : Interp), loop D side acc d = .ok (some r) →
    (∀ b ∈ raws side.portVar d, ∃ n, (D.value b).bind D.u32 = some n) ∧
    (∀ b ∈ raws .delaysec d, ∃ n, (D.value b).bind D.u32 = some n) := by
  induction d with
  | nil => intro acc r _; exact ⟨nofun, nofun⟩
  | cons e d ih =>
    intro acc r h
    obtain ⟨var, raw⟩ := e
    simp only [loop] at h
    obtain ⟨v, hv, h⟩ := Res.bind_eq_ok.1 h
    obtain ⟨o, ho, h⟩ := Res.bind_eq_ok.1 h
    cases o with
    | none => cases h
    | some acc' =>
      obtain ⟨h1, h2⟩ := ih _ _ h
      have hv := ofOpt_eq_ok.1 hv
      refine ⟨fun b hb => ?_, fun b hb => ?_⟩
      · unfold raws at hb
        by_cases hw : var = side.portVar
        · rw [List.filterMap_cons_some (b := raw) (by exact if_pos hw)] at hb
          rcases List.mem_cons.1 hb with rfl | hb
          · rw [hv]
            subst hw
            cases side <;> simp only [step, Side.portVar, if_true] at ho <;>
              (obtain ⟨x, hx, _⟩ := Res.bind_eq_ok.1 ho
               exact ⟨x, ofOpt_eq_ok.1 hx⟩)
          · exact h1 b hb
        · rw [List.filterMap_cons_none (by exact if_neg hw)] at hb
          exact h1 b hb
      · unfold raws at hb
        by_cases hw : var = .delaysec
        · rw [List.filterMap_cons_some (b := raw) (by exact if_pos hw)] at hb
          rcases List.mem_cons.1 hb with rfl | hb
          · rw [hv]
            subst hw
            simp only [step] at ho
            obtain ⟨x, hx, _⟩ := Res.bind_eq_ok.1 ho
            exact ⟨x, ofOpt_eq_ok.1 hx⟩
          · exact h2 b hb
        · rw [List.filterMap_cons_none (by exact if_neg hw)] at hb
          exact h2 b hb

/-- **C77** (one directive): what a device or an owner reads from an encoded directive is what was configured. -/
theorem directive_says (hL : L.Good) (side : Side) {cfg : Configured} {d : Directive}
    (h : List.Forall₂ (Loaded L) cfg d) (r : Interp) (hr : fromDirective (decoders L) side d = .ok (some r)) :
    Says L.parseIp side cfg r := by
  obtain ⟨hm, p, hp, hport⟩ := C18_interpretation_partial _ side d r hr
  have hreads : (∀ b ∈ raws side.portVar d, ∃ n, (L.dec b).bind (decoders L).u32 = some n) ∧
      (∀ b ∈ raws .delaysec d, ∃ n, (L.dec b).bind (decoders L).u32 = some n) := by
    unfold fromDirective at hr
    obtain ⟨o, ho, hr⟩ := Res.bind_eq_ok.1 hr
    cases o with
    | none => cases hr
    | some acc => exact loop_reads _ side d _ _ ho
  have hports : valueOf side.portVar cfg = (readLast (decoders L) (decoders L).u32 side.portVar d).map .pos :=
    numbers hL _ (fun y v hc => by cases side <;> exact hc) h hreads.1
  have hdelay := numbers hL .delaysec (fun y v hc => hc) h hreads.2
  have hsome : ∀ var, ¬Has d var → valueOf var cfg = none := fun var hn => by
    cases hv : valueOf var cfg with
    | none => rfl
    | some y => exact absurd ((has_values hL var h).2 (by rw [hv]; rfl)) hn
  refine ⟨hsome _ hm.relevant, fun ho => hsome _ (hm.ownerBypass ho), ?_, ?_, ⟨p, hp, ?_⟩, ?_, ?_, ?_, ?_,
    ⟨?_, ?_, ?_⟩, ?_, ?_⟩
  · rw [hm.ips]; exact addresses hL h
  · rw [hm.dns]; exact texts hL .dns (fun y v hc => hc) h
  · rw [hports]
    rcases hport with hq | ⟨hq, hq'⟩
    · rw [hq]; exact .inl rfl
    · rw [hq]; exact .inr ⟨rfl, hq'⟩
  · rw [hm.protocol]
    rcases protocols hL h with ⟨h1, h2⟩ | ⟨s, q, h1, h2, h3⟩
    · rw [h2]; exact .inr ⟨h1, rfl⟩
    · rw [h3]; exact .inl ⟨s, h1, h2⟩
  · rw [hm.delay, hdelay]
    cases readLast (decoders L) (decoders L).u32 .delaysec d with
    | none => exact .inr ⟨rfl, rfl⟩
    | some n => exact .inl rfl
  · rw [hm.ssid, texts hL .wifiSsid (fun y v hc => hc) h]
    cases side <;> rfl
  · rw [hm.wifiPw, texts hL .wifiPw (fun y v hc => hc) h]
    cases side <;> rfl
  · rw [hm.serverCert, never hL .serverCertHash (fun y v hc => hc) _ h]
    cases side <;> rfl
  · rw [hm.caCert, never hL .caCertHash (fun y v hc => hc) _ h]
    cases side <;> rfl
  · rw [hm.medium, never hL .medium (fun y v hc => hc) _ h]
    cases side <;> rfl
  · rw [hm.userInput, has_values hL _ h]
  · rw [hm.bypass, has_values hL _ h]

theorem directive_skipped (hL : L.Good) (side : Side) {cfg : Configured} {d : Directive}
    (h : List.Forall₂ (Loaded L) cfg d) (hr : fromDirective (decoders L) side d = .ok none) : Skipped side cfg := by
  rcases C18_dropped _ side d hr with h1 | ⟨h1, h2⟩
  · exact .inl ((has_values hL _ h).1 h1)
  · exact .inr ⟨h1, (has_values hL _ h).1 h2⟩

/-- How a configured directive and its interpretation correspond. -/
def Read (parseIp : String → Option Bytes) (side : Side) (cfg : Configured) : Option Interp → Prop
  | some r => Says parseIp side cfg r
  | none => Skipped side cfg

theorem interpreted (hL : L.Good) (side : Side) (cfgs : List Configured) (ds : List Directive)
    (hl : List.Forall₂ (fun cfg d => List.Forall₂ (Loaded L) cfg d) cfgs ds) (os : List (Option Interp))
    (ho : List.Forall₂ (fun d o => fromDirective (decoders L) side d = .ok o) ds os) :
    List.Forall₂ (Read L.parseIp side) cfgs os := by
  induction hl generalizing os with
  | nil => cases ho; exact .nil
  | cons hd _ ih =>
    cases ho with
    | @cons _ o _ os ho hos =>
      refine .cons ?_ (ih os hos)
      cases o with
      | none => exact directive_skipped hL side hd ho
      | some r => exact directive_says hL side hd r ho

/-- **C77**: if configured rendezvous information is accepted, and a device or an owner can interpret it, then what they
read is what was configured: the directives for their side, in order, with the configured addresses, name, port, protocol,
delay and network settings, and no others. Missing: a configuration may be accepted although it cannot be interpreted
(`C77_port_violated`, `C77_reach_violated`), see `C77_usable`. -/
theorem C77_configured_partial (hL : L.Good) (side : Side) (cfgs : List Configured) (ds : List Directive)
    (h : load L cfgs = .ok ds) (rs : List Interp) (hr : toInterpreted (decoders L) side ds = .ok rs) :
    ∃ os, List.Forall₂ (Read L.parseIp side) cfgs os ∧ rs = os.filterMap id := by
  obtain ⟨os, h1, h2⟩ := (C18_order _ side ds rs).1 hr
  exact ⟨os, interpreted hL side cfgs ds (load_loaded cfgs ds h) os h1, h2⟩

/-! ### Usable configurations -/

theorem small_read {y : Yaml} {v : Value}
    (hc : (∃ n : Nat, y = .pos n ∧ v = .int n) ∨ ∃ n, y = .neg n ∧ v = .int (Int.negSucc n)) (hs : Small y) :
    ∃ n, (decoders L).u32 v = some n := by
  rcases hc with ⟨m, rfl, rfl⟩ | ⟨m, rfl, rfl⟩
  · refine ⟨m, ?_⟩
    have hs : m < 2 ^ 32 := hs
    simp only [decoders]
    rw [if_pos ⟨by omega, by omega⟩]
    simp
  · cases hs

theorem step_ok (hL : L.Good) (side : Side) (acc : Interp) {var : Var} {y : Yaml} {v : Value} (hc : Conf L var y v)
    (hport : var = side.portVar → Small y) (hdelay : var = .delaysec → Small y) :
    ∃ o, step (decoders L) side acc var v = .ok o := by
  cases var <;> simp only [step] <;> simp only [Conf] at hc
  case deviceOnly | ownerOnly | userInput | bypass => split <;> exact ⟨_, rfl⟩
  case devicePort =>
    by_cases hs : side = .device
    · subst hs
      obtain ⟨n, hn⟩ := small_read (L := L) hc (hport rfl)
      exact ⟨_, by rw [if_pos rfl, hn]; rfl⟩
    · exact ⟨_, if_neg hs⟩
  case ownerPort =>
    by_cases hs : side = .owner
    · subst hs
      obtain ⟨n, hn⟩ := small_read (L := L) hc (hport rfl)
      exact ⟨_, by rw [if_pos rfl, hn]; rfl⟩
    · exact ⟨_, if_neg hs⟩
  case delaysec =>
    obtain ⟨n, hn⟩ := small_read (L := L) hc (hdelay rfl)
    exact ⟨_, by rw [hn]; rfl⟩
  case dns =>
    obtain ⟨s, _, rfl⟩ := hc
    exact ⟨_, rfl⟩
  case wifiSsid | wifiPw =>
    obtain ⟨s, _, rfl⟩ := hc
    split <;> exact ⟨_, rfl⟩
  case protocol =>
    obtain ⟨s, p, _, _, rfl⟩ := hc
    exact ⟨_, by rw [proto_number]; rfl⟩
  case ipAddress =>
    obtain ⟨s, x, _, hx, rfl⟩ := hc
    have : (decoders L).ip (.bytes x) = some x := by
      simp only [decoders]
      exact if_pos (hL.ip s x hx)
    exact ⟨_, by rw [this]; rfl⟩

theorem loop_ok (hL : L.Good) (side : Side) {cfg : Configured} {d : Directive} (h : List.Forall₂ (Loaded L) cfg d)
    (hport : ∀ y ∈ valuesOf side.portVar cfg, Small y) (hdelay : ∀ y ∈ valuesOf .delaysec cfg, Small y) :
    ∀ acc, ∃ o, loop (decoders L) side acc d = .ok o := by
  induction h with
  | nil => intro acc; exact ⟨_, rfl⟩
  | @cons e x cfg d hx _ ih =>
    intro acc
    obtain ⟨hn, v, hc, hb⟩ := hx
    obtain ⟨var, raw⟩ := x
    have mem : ∀ w, var = w → e.2 ∈ valuesOf w (e :: cfg) := by
      rintro w rfl
      unfold valuesOf
      rw [List.filterMap_cons_some (b := e.2) (by rw [if_pos hn])]
      exact List.mem_cons_self ..
    have more : ∀ w y, y ∈ valuesOf w cfg → y ∈ valuesOf w (e :: cfg) := by
      intro w y hy
      unfold valuesOf at hy ⊢
      rw [List.filterMap_cons]
      split
      · exact hy
      · exact List.mem_cons_of_mem _ hy
    obtain ⟨o, ho⟩ := step_ok hL side acc hc (fun hw => hport _ (mem _ hw)) (fun hw => hdelay _ (mem _ hw))
    have hd : (decoders L).value raw = some v := conf_dec hL hc hb
    simp only [loop, hd, ofOpt]
    change ∃ o, (do
      let x ← step (decoders L) side acc var v
      match x with
      | none => Res.ok none
      | some acc' => loop (decoders L) side acc' d) = .ok o
    rw [ho, Res.bind_ok]
    cases o with
    | none => exact ⟨none, rfl⟩
    | some acc' => exact ih (fun y hy => hport y (more _ y hy)) (fun y hy => hdelay y (more _ y hy)) acc'

theorem directive_ok (hL : L.Good) (side : Side) {cfg : Configured} {d : Directive} (h : List.Forall₂ (Loaded L) cfg d)
    (hc : Complete side cfg) : ∃ o, fromDirective (decoders L) side d = .ok o := by
  obtain ⟨o, ho⟩ := loop_ok hL side h hc.port hc.delay .init
  unfold fromDirective
  rw [ho, Res.bind_ok]
  cases o with
  | none => exact ⟨none, rfl⟩
  | some acc =>
    simp only
    cases hp : acc.port with
    | some p => exact ⟨_, rfl⟩
    | none =>
      obtain ⟨hm, hpm⟩ := loop_meaning _ side d [] .init acc (init_meaning _ side).1 (init_meaning _ side).2 ho
      simp only [List.nil_append] at hm hpm
      have hports : valueOf side.portVar cfg = (readLast (decoders L) (decoders L).u32 side.portVar d).map .pos :=
        numbers hL _ (fun y v hc => by cases side <;> exact hc) h (loop_reads _ side d _ _ ho).1
      unfold PortMeaning at hpm
      rw [← hpm, hp] at hports
      rcases hc.reachable with hn | ⟨s, h1, h2⟩
      · exact absurd (valueOf_none.1 hports) hn
      · have hpr := hm.protocol
        rcases protocols hL h with ⟨h3, h4⟩ | ⟨t, q, h3, h4, h5⟩
        · rw [h1] at h3; cases h3
        · rw [h1] at h3
          cases h3
          rw [h5] at hpr
          have hpr : acc.protocol = q := hpr
          rw [hpr]
          rcases h2 with h2 | h2
          · rw [← protoName_inj (h2.symm.trans h4)]; exact ⟨_, rfl⟩
          · rw [← protoName_inj (h2.symm.trans h4)]; exact ⟨_, rfl⟩

/-- **C77** (usable): accepted rendezvous information whose directives all have a port for this side (or a protocol with a
default port), with ports and delays of at most 32 bits, is interpreted, as it was configured. -/
theorem C77_usable (hL : L.Good) (side : Side) (cfgs : List Configured) (hc : ∀ cfg ∈ cfgs, Complete side cfg)
    (ds : List Directive) (h : load L cfgs = .ok ds) :
    ∃ os, toInterpreted (decoders L) side ds = .ok (os.filterMap id) ∧ List.Forall₂ (Read L.parseIp side) cfgs os := by
  have hl := load_loaded cfgs ds h
  have : ∃ os, List.Forall₂ (fun d o => fromDirective (decoders L) side d = .ok o) ds os := by
    clear h
    induction hl with
    | nil => exact ⟨[], .nil⟩
    | cons hd _ ih =>
      obtain ⟨os, hos⟩ := ih fun cfg hcfg => hc cfg (List.mem_cons_of_mem _ hcfg)
      obtain ⟨o, ho⟩ := directive_ok hL side hd (hc _ (List.mem_cons_self ..))
      exact ⟨o :: os, .cons ho hos⟩
  obtain ⟨os, hos⟩ := this
  exact ⟨os, (C18_order _ side ds _).2 ⟨os, hos, rfl⟩, interpreted hL side cfgs ds hl os hos⟩

/-- **C77** (the owner's tool): a file is read as the configuration of a server is, if it is a list of mappings whose names
are texts; otherwise it is refused. -/
theorem C77_tool (y : Yaml) (ds : List Directive) :
    loadYaml L y = .ok ds ↔ ∃ cfgs : List Configured, load L cfgs = .ok ds ∧
      y = .seq (cfgs.map fun cfg => .map (cfg.map fun e => (.str e.1, e.2))) := by
  have hnamed : ∀ (m : List (Yaml × Yaml)) cfg, named m = some cfg ↔ m = cfg.map fun e => (.str e.1, e.2) := by
    intro m
    induction m with
    | nil => intro cfg; cases cfg <;> simp [named]
    | cons e m ih =>
      intro cfg
      obtain ⟨k, v⟩ := e
      cases k with
      | str s =>
        simp only [named, Option.map_eq_some_iff]
        constructor
        · rintro ⟨t, ht, rfl⟩
          rw [(ih t).1 ht]; rfl
        · intro h
          cases cfg with
          | nil => cases h
          | cons a cfg =>
            simp only [List.map_cons, List.cons.injEq, Prod.mk.injEq, Yaml.str.injEq] at h
            exact ⟨cfg, (ih cfg).2 h.2, by rw [h.1.1, h.1.2]⟩
      | _ =>
        simp only [named]
        constructor
        · intro h; cases h
        · intro h; cases cfg <;> simp at h
  have hentries : ∀ (l : List Yaml) cfgs, loadYaml.entries l = .ok cfgs ↔
      l = cfgs.map fun cfg : Configured => .map (cfg.map fun e => (.str e.1, e.2)) := by
    intro l
    induction l with
    | nil =>
      intro cfgs
      simp only [loadYaml.entries, Res.ok.injEq]
      constructor
      · rintro rfl; rfl
      · intro h; cases cfgs with
        | nil => rfl
        | cons => simp at h
    | cons y l ih =>
      intro cfgs
      cases y with
      | map m =>
        simp only [loadYaml.entries]
        constructor
        · intro h
          split at h
          · rename_i cfg hm
            obtain ⟨t, ht, h⟩ := Res.bind_eq_ok.1 h
            cases h
            rw [(hnamed m cfg).1 hm, (ih t).1 ht]; rfl
          · cases h
        · intro h
          cases cfgs with
          | nil => simp at h
          | cons cfg cfgs =>
            simp only [List.map_cons, List.cons.injEq, Yaml.map.injEq] at h
            rw [(hnamed m cfg).2 h.1]
            simp only [(ih cfgs).2 h.2, Res.bind_ok, Res.pure_eq]
      | _ =>
        simp only [loadYaml.entries]
        constructor
        · intro h; cases h
        · intro h; cases cfgs <;> simp at h
  cases y with
  | seq l =>
    simp only [loadYaml, Yaml.seq.injEq]
    constructor
    · intro h
      obtain ⟨cfgs, h1, h2⟩ := Res.bind_eq_ok.1 h
      exact ⟨cfgs, h2, (hentries l cfgs).1 h1⟩
    · rintro ⟨cfgs, h1, h2⟩
      rw [(hentries l cfgs).2 h2, Res.bind_ok, h1]
  | _ => simp [loadYaml]

/-! ### Examples -/

/-- External functions for examples: a few values can be encoded. -/
def toyLib : Lib where
  parseIp s := if s = "192.0.2.1" then some [192, 0, 2, 1] else none
  enc v := match v with
    | .null => some [0]
    | .int i =>
      if i = 1 then some [1] else if i = 8080 then some [2] else if i = -1 then some [3] else if i = 70000 then some [4]
      else none
    | .text s => if s = "rv" then some [5] else none
    | .bytes b => if b = [192, 0, 2, 1] then some [6] else none
    | _ => none
  dec b := match b with
    | [0] => some .null
    | [1] => some (.int 1)
    | [2] => some (.int 8080)
    | [3] => some (.int (-1))
    | [4] => some (.int 70000)
    | [5] => some (.text "rv")
    | [6] => some (.bytes [192, 0, 2, 1])
    | _ => none
  hash _ := none

theorem toyLib_good : toyLib.Good where
  null b h := by cases h; rfl
  int i b h := by
    simp only [toyLib] at h
    repeat (split at h; · cases h; subst_vars; rfl)
    cases h
  text s b h := by
    simp only [toyLib] at h
    split at h
    · cases h; subst_vars; rfl
    · cases h
  bytes x b h := by
    simp only [toyLib] at h
    split at h
    · cases h; subst_vars; rfl
    · cases h
  ip s b h := by
    simp only [toyLib] at h
    split at h
    · cases h; exact .inl rfl
    · cases h

/-- A server for devices and owners, and one for devices only. -/
def toyCfg : List Configured :=
  [[("Device_Port", .pos 8080), ("dns", .str "rv"), ("ip", .str "192.0.2.1"), ("protocol", .str "HTTP")],
   [("deviceonly", .bool true), ("dns", .str "rv"), ("protocol", .str "http")]]

/-- It is accepted, and read by both sides. -/
example : ∃ ds, load toyLib toyCfg = .ok ds ∧
    toInterpreted (decoders toyLib) .device ds =
      .ok [{ Interp.init with ipAddresses := [[192, 0, 2, 1]], dnsName := some "rv", port := some 8080, protocol := .http },
        { Interp.init with dnsName := some "rv", port := some 80, protocol := .http }] ∧
    toInterpreted (decoders toyLib) .owner ds =
      .ok [{ Interp.init with ipAddresses := [[192, 0, 2, 1]], dnsName := some "rv", port := some 80, protocol := .http }] :=
  ⟨[[(.devicePort, [2]), (.dns, [5]), (.ipAddress, [6]), (.protocol, [1])],
    [(.deviceOnly, [0]), (.dns, [5]), (.protocol, [1])]], by decide +kernel, by decide +kernel, by decide +kernel⟩

/-- Its directives are complete, for both sides. -/
example (side : Side) : ∀ cfg ∈ toyCfg, Complete side cfg := by
  intro cfg hcfg
  simp only [toyCfg, List.mem_cons, List.not_mem_nil, or_false] at hcfg
  cases side <;> rcases hcfg with rfl | rfl
  · exact ⟨fun y hy => by rcases List.mem_cons.1 hy with rfl | hy <;> [show 8080 < 2 ^ 32; cases hy]; omega, nofun, .inr ⟨"HTTP", rfl, .inl (by decide +kernel)⟩⟩
  · exact ⟨nofun, nofun, .inr ⟨"http", rfl, .inl (by decide +kernel)⟩⟩
  · exact ⟨nofun, nofun, .inr ⟨"HTTP", rfl, .inl (by decide +kernel)⟩⟩
  · exact ⟨nofun, nofun, .inr ⟨"http", rfl, .inl (by decide +kernel)⟩⟩

/-- "Accepted rendezvous information can be used" is false: a negative port is accepted, and devices then cannot interpret
any of the directives. -/
theorem C77_port_violated : ∃ (L : Lib) (cfgs : List Configured) (ds : List Directive), L.Good ∧ load L cfgs = .ok ds ∧
    Complete .device [("dns", .str "rv"), ("protocol", .str "http")] ∧
    [("dns", .str "rv"), ("protocol", .str "http")] ∈ cfgs ∧ toInterpreted (decoders L) .device ds = .err .serde :=
  ⟨toyLib, [[("dns", .str "rv"), ("protocol", .str "http")],
      [("device_port", .neg 0), ("dns", .str "rv"), ("protocol", .str "http")]],
    [[(.dns, [5]), (.protocol, [1])], [(.devicePort, [3]), (.dns, [5]), (.protocol, [1])]], toyLib_good,
    by decide +kernel, ⟨nofun, nofun, .inr ⟨"http", rfl, .inl (by decide +kernel)⟩⟩, List.mem_cons_self ..,
    by decide +kernel⟩

/-- The same if a directive has a port for devices only and no protocol: owners cannot interpret any of the directives. -/
theorem C77_reach_violated : ∃ (L : Lib) (cfgs : List Configured) (ds : List Directive), L.Good ∧ load L cfgs = .ok ds ∧
    Complete .owner [("dns", .str "rv"), ("protocol", .str "http")] ∧
    [("dns", .str "rv"), ("protocol", .str "http")] ∈ cfgs ∧ toInterpreted (decoders L) .owner ds = .err .serde :=
  ⟨toyLib, [[("dns", .str "rv"), ("protocol", .str "http")], [("device_port", .pos 8080), ("dns", .str "rv")]],
    [[(.dns, [5]), (.protocol, [1])], [(.devicePort, [2]), (.dns, [5])]], toyLib_good,
    by decide +kernel, ⟨nofun, nofun, .inr ⟨"http", rfl, .inl (by decide +kernel)⟩⟩, List.mem_cons_self ..,
    by decide +kernel⟩

/-- "Accepted ports are ports" is false: 70000 is accepted and used in URLs. -/
theorem C77_url_violated : ∃ (L : Lib) (cfgs : List Configured) (ds : List Directive) (r : Interp), L.Good ∧
    load L cfgs = .ok ds ∧ toInterpreted (decoders L) .device ds = .ok [r] ∧
    getUrls (fun _ => "ip") r = ["http://rv:70000"] :=
  ⟨toyLib, [[("device_port", .pos 70000), ("dns", .str "rv"), ("protocol", .str "http")]],
    [[(.devicePort, [4]), (.dns, [5]), (.protocol, [1])]],
    { Interp.init with dnsName := some "rv", port := some 70000, protocol := .http }, toyLib_good,
    by decide +kernel, by decide +kernel, by decide +kernel⟩

/-- "A marker that is switched off is not set" is false: `device_only: false` hides the directive from owners. -/
theorem C77_marker_violated : ∃ (L : Lib) (ds : List Directive), L.Good ∧
    load L [[("device_only", .bool false), ("dns", .str "rv"), ("protocol", .str "http")]] = .ok ds ∧
    toInterpreted (decoders L) .owner ds = .ok [] :=
  ⟨toyLib, [[(.deviceOnly, [0]), (.dns, [5]), (.protocol, [1])]], toyLib_good, by decide +kernel, by decide +kernel⟩

end Verif.Config
