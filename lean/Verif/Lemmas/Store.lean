import Verif.Spec.Store
/-!
Lemmas on the directory store: names, encodings, and the relation to the abstract map.
-/
namespace Verif.Store
open Verif Verif.Spec.Store

/-! ### Encodings -/

theorem leBytes_length (k n : Nat) : (leBytes k n).length = k := by
  induction k generalizing n with
  | zero => rfl
  | succ k ih => simp [leBytes, ih]

theorem leNat_leBytes (k n : Nat) (h : n < 256 ^ k) : leNat (leBytes k n) = n := by
  induction k generalizing n with
  | zero => simp at h; subst h; rfl
  | succ k ih =>
    simp only [leBytes, leNat]
    have h1 : n / 256 < 256 ^ k := by
      rw [Nat.pow_succ] at h
      exact Nat.div_lt_of_lt_mul (by rw [Nat.mul_comm]; exact h)
    rw [ih _ h1]
    have : (UInt8.ofNat (n % 256)).toNat = n % 256 := by
      simp
    rw [this]
    omega

theorem ttl_roundtrip (s : Nat) (h : s < 2 ^ 63) : ttlFromDisk (leBytes 8 s) = .ok s := by
  have h2 : s < 256 ^ 8 := by
    have : (2:Nat) ^ 63 < 256 ^ 8 := by decide
    omega
  unfold ttlFromDisk
  rw [leBytes_length, leNat_leBytes 8 s h2]
  simp only [ne_eq, not_true_eq_false, if_false]
  rw [if_neg (by omega)]

/-! ### Names -/

/-- Keys as used: GUIDs and base64 session ids contain no `_` and no `.`. -/
def Good (k : Name) : Prop := k ≠ [] ∧ ∀ c ∈ k, c ≠ '_' ∧ c ≠ '.'

theorem escape_no_dot (k : Name) (h : ∀ c ∈ k, c ≠ '.') : ∀ c ∈ escape k, c ≠ '.' := by
  induction k with
  | nil => simp [escape]
  | cons a r ih =>
    intro c hc
    unfold escape at hc
    split at hc
    · rcases List.mem_append.1 hc with hc | hc
      · have : ∀ c ∈ "_slash_".toList, c ≠ '.' := by decide
        exact this c hc
      · exact ih (fun c h' => h c (by simp [h'])) c hc
    · rcases List.mem_cons.1 hc with rfl | hc
      · exact h _ (by simp)
      · exact ih (fun c h' => h c (by simp [h'])) c hc

theorem escape_ne_nil (k : Name) (h : k ≠ []) : escape k ≠ [] := by
  cases k with
  | nil => exact absurd rfl h
  | cons a r =>
    unfold escape
    split <;> simp

theorem escape_injective (k k' : Name) (h : ∀ c ∈ k, c ≠ '_') (h' : ∀ c ∈ k', c ≠ '_')
    (he : escape k = escape k') : k = k' := by
  induction k generalizing k' with
  | nil =>
    cases k' with
    | nil => rfl
    | cons a r => exact absurd he.symm (escape_ne_nil (a :: r) (by simp))
  | cons a r ih =>
    cases k' with
    | nil => exact absurd he (escape_ne_nil (a :: r) (by simp))
    | cons a' r' =>
      have ha : a ≠ '_' := h a (by simp)
      have ha' : a' ≠ '_' := h' a' (by simp)
      have ih' := fun e => ih r' (fun c hc => h c (by simp [hc])) (fun c hc => h' c (by simp [hc])) e
      have e1 : "_slash_".toList = ['_', 's', 'l', 'a', 's', 'h', '_'] := by decide
      simp only [escape] at he
      by_cases c1 : a = '/' <;> by_cases c2 : a' = '/'
      · rw [if_pos c1, if_pos c2] at he
        rw [c1, c2, ih' (List.append_cancel_left he)]
      · rw [if_pos c1, if_neg c2, e1] at he
        simp only [List.cons_append, List.cons.injEq] at he
        exact absurd he.1.symm ha'
      · rw [if_neg c1, if_pos c2, e1] at he
        simp only [List.cons_append, List.cons.injEq] at he
        exact absurd he.1 ha
      · rw [if_neg c1, if_neg c2] at he
        simp only [List.cons.injEq] at he
        rw [he.1, ih' he.2]

theorem good_escape_injective {k k' : Name} (h : Good k) (h' : Good k') (he : escape k = escape k') : k = k' :=
  escape_injective k k' (fun c hc => (h.2 c hc).1) (fun c hc => (h'.2 c hc).1) he

theorem good_ne_tmp {k : Name} (h : Good k) (n : Name) : escape k ≠ tmpName n := by
  intro he
  have : '.' ∈ escape k := by rw [he]; simp [tmpName]
  exact escape_no_dot k (fun c hc => (h.2 c hc).2) '.' this rfl

theorem good_not_special {k : Name} (h : Good k) :
    escape k ≠ "..".toList ∧ escape k ≠ [] ∧ escape k ≠ ".".toList := by
  refine ⟨?_, escape_ne_nil k h.1, ?_⟩
  · intro he
    exact escape_no_dot k (fun c hc => (h.2 c hc).2) '.' (by rw [he]; decide) rfl
  · intro he
    exact escape_no_dot k (fun c hc => (h.2 c hc).2) '.' (by rw [he]; decide) rfl

theorem xattrName_injective {a b : Name} (h : xattrName a = xattrName b) : a = b :=
  List.append_cancel_left h

/-! ### Storing -/

theorem foldl_append (d : Dir) (n : Name) (f : File) (h : d n = some f) (pieces : List Bytes) :
    ((pieces.map (FsOp.append n)).foldl Dir.apply d) n = some { f with content := f.content ++ pieces.flatten } ∧
    ∀ m, m ≠ n → ((pieces.map (FsOp.append n)).foldl Dir.apply d) m = d m := by
  induction pieces generalizing d f with
  | nil => simp [h]
  | cons p r ih =>
    have h1 : d.apply (.append n p) n = some { f with content := f.content ++ p } := by
      simp [Dir.apply, h, Dir.put]
    have h2 : ∀ m, m ≠ n → d.apply (.append n p) m = d m := by
      intro m hm
      simp [Dir.apply, h, Dir.put, hm]
    obtain ⟨i1, i2⟩ := ih (d.apply (.append n p)) _ h1
    simp only [List.map_cons, List.foldl_cons]
    refine ⟨?_, fun m hm => ?_⟩
    · rw [i1]
      simp [List.append_assoc]
    · rw [i2 m hm, h2 m hm]

/-- Attributes of a file, none if it is absent. -/
def attrsOf (d : Dir) (n : Name) : Name → Option Bytes :=
  match d n with
  | none => fun _ => none
  | some f => f.xattrs

theorem create_spec (d : Dir) (n : Name) :
    d.apply (.create n) n = some ⟨[], attrsOf d n⟩ ∧ ∀ m, m ≠ n → d.apply (.create n) m = d m := by
  unfold attrsOf
  constructor
  · simp only [Dir.apply]
    cases h : d n with
    | none => simp [Dir.put]
    | some f => simp [Dir.put]
  · intro m hm
    simp only [Dir.apply]
    cases h : d n with
    | none => simp [Dir.put, hm]
    | some f => simp [Dir.put, hm]

/-- The directory before the rename: only the temporary file has changed. -/
theorem before_rename (d : Dir) (n : Name) (pieces : List Bytes) :
    ((FsOp.create n :: pieces.map (FsOp.append n)).foldl Dir.apply d) n = some ⟨pieces.flatten, attrsOf d n⟩ ∧
    ∀ m, m ≠ n → ((FsOp.create n :: pieces.map (FsOp.append n)).foldl Dir.apply d) m = d m := by
  obtain ⟨h1, h2⟩ := create_spec d n
  obtain ⟨h3, h4⟩ := foldl_append (d.apply (.create n)) n _ h1 pieces
  simp only [List.foldl_cons]
  refine ⟨by rw [h3]; simp, fun m hm => by rw [h4 m hm, h2 m hm]⟩

theorem storeUpTo_other (d : Dir) (key : Name) (pieces : List Bytes) (n : Nat) (hn : n < pieces.length + 2)
    (m : Name) (hm : m ≠ tmpName (escape key)) : storeUpTo d key pieces n m = d m := by
  unfold storeUpTo storeOps
  have hl : n ≤ (FsOp.create (tmpName (escape key)) :: pieces.map (FsOp.append (tmpName (escape key)))).length := by
    simp; omega
  rw [List.take_append_of_le_length hl]
  cases n with
  | zero => rfl
  | succ n =>
    rw [List.take_succ_cons, ← List.map_take]
    exact (before_rename d _ _).2 m hm

theorem storeUpTo_tmp (d : Dir) (key : Name) (pieces : List Bytes) (n : Nat) (hn : n < pieces.length + 2)
    (f : File) (hf : storeUpTo d key pieces n (tmpName (escape key)) = some f) :
    f.xattrs = attrsOf d (tmpName (escape key)) := by
  unfold storeUpTo storeOps at hf
  have hl : n ≤ (FsOp.create (tmpName (escape key)) :: pieces.map (FsOp.append (tmpName (escape key)))).length := by
    simp; omega
  rw [List.take_append_of_le_length hl] at hf
  cases n with
  | zero =>
    unfold attrsOf
    simp only [List.take_zero, List.foldl_nil] at hf
    rw [hf]
  | succ n =>
    rw [List.take_succ_cons, ← List.map_take, (before_rename d _ _).1] at hf
    cases hf
    rfl

theorem storeAll_spec (d : Dir) (key : Name) (pieces : List Bytes) (hne : escape key ≠ tmpName (escape key)) :
    ((storeOps key pieces).foldl Dir.apply d) (escape key) =
      some ⟨pieces.flatten, attrsOf d (tmpName (escape key))⟩ ∧
    ((storeOps key pieces).foldl Dir.apply d) (tmpName (escape key)) = none ∧
    ∀ m, m ≠ escape key → m ≠ tmpName (escape key) → ((storeOps key pieces).foldl Dir.apply d) m = d m := by
  unfold storeOps
  rw [List.foldl_append]
  obtain ⟨h1, h2⟩ := before_rename d (tmpName (escape key)) pieces
  generalize (FsOp.create (tmpName (escape key)) :: pieces.map (FsOp.append (tmpName (escape key)))).foldl Dir.apply d = d' at h1 h2
  simp only [List.foldl_cons, List.foldl_nil, Dir.apply, h1]
  refine ⟨by simp [Dir.put], by simp [Dir.put, Dir.erase, Ne.symm hne], ?_⟩
  intro m hm hm'
  simp only [Dir.put, Dir.erase, if_neg hm, if_neg hm']
  exact h2 m hm'

/-! ### Relation to the abstract map -/

section Rel
variable {V : Type} (ser : V → Bytes)

/-- Stored form of metadata. -/
def metaBytes : Meta → Bytes
  | .flag true => "true".toUTF8.toList
  | .flag false => "false".toUTF8.toList
  | .time t => leBytes 8 (t % 2 ^ 64).toNat

/-- A file holds an entry. -/
structure Holds (f : File) (e : Entry V) : Prop where
  content : f.content = ser e.value
  expiry : f.xattrs (xattrName ttlKey) = e.expiry.map (leBytes 8)
  bound : ∀ s, e.expiry = some s → s < 2 ^ 63
  attrs : ∀ m, m ≠ ttlKey → f.xattrs (xattrName m) = (e.attrs m).map metaBytes

/-- A directory represents a map. -/
structure Rel (d : Dir) (A : Name → Option (Entry V)) : Prop where
  none_of : ∀ k, Good k → A k = none → d (escape k) = none
  some_of : ∀ k, Good k → ∀ e, A k = some e → ∃ f, d (escape k) = some f ∧ Holds ser f e
  tmp : ∀ k, Good k → ∀ f, d (tmpName (escape k)) = some f → ∀ a, f.xattrs a = none
  names : ∀ n f, d n = some f → ∃ k, Good k ∧ (n = escape k ∨ n = tmpName (escape k))

theorem rel_empty : Rel ser (fun _ => none) (fun _ => (none : Option (Entry V))) :=
  ⟨fun _ _ _ => rfl, fun _ _ _ h => (nomatch h), fun _ _ _ h => (nomatch h), fun _ _ h => (nomatch h)⟩

theorem holds_expired {f : File} {e : Entry V} (h : Holds ser f e) (now : Nat) :
    fileExpired now f = .ok (decide (e.past now)) := by
  unfold fileExpired
  rw [h.expiry]
  cases he : e.expiry with
  | none =>
    simp only [Option.map_none]
    congr 1
    symm
    rw [decide_eq_false_iff_not]
    rintro ⟨s, h1, _⟩
    rw [he] at h1; cases h1
  | some s =>
    simp only [Option.map_some, ttl_roundtrip s (h.bound s he)]
    congr 1
    rw [decide_eq_decide]
    constructor
    · intro h'; exact ⟨s, he, h'⟩
    · rintro ⟨s', h1, h2⟩
      rw [he] at h1; cases h1
      exact h2

variable {ser}

/-- All that matters of a TTL attribute in a represented directory. -/
theorem Rel.ttl {d : Dir} {A : Name → Option (Entry V)} (R : Rel ser d A) {n : Name} {f : File} (hf : d n = some f)
    {b : Bytes} (hb : f.xattrs (xattrName ttlKey) = some b) :
    ∃ k e s, Good k ∧ n = escape k ∧ A k = some e ∧ Holds ser f e ∧ e.expiry = some s ∧ b = leBytes 8 s ∧ s < 2 ^ 63 := by
  obtain ⟨k, hk, hn | hn⟩ := R.names n f hf
  · subst hn
    cases hA : A k with
    | none => rw [R.none_of k hk hA] at hf; cases hf
    | some e =>
      obtain ⟨f', hf', hh⟩ := R.some_of k hk e hA
      rw [hf] at hf'; cases hf'
      have := hh.expiry
      rw [hb] at this
      cases he : e.expiry with
      | none => rw [he] at this; cases this
      | some s =>
        rw [he] at this
        simp only [Option.map_some, Option.some.injEq] at this
        exact ⟨k, e, s, hk, rfl, hA, hh, he, this, hh.bound s he⟩
  · subst hn
    rw [R.tmp k hk f hf] at hb; cases hb

/-- Removing the file of one key. -/
theorem Rel.erase {d : Dir} {A : Name → Option (Entry V)} (R : Rel ser d A) {k : Name} (hk : Good k) :
    Rel ser (d.erase (escape k)) (fun k' => if k' = k then none else A k') where
  none_of := by
    intro k' hk' h
    unfold Dir.erase
    split
    · rfl
    · rename_i hne
      rw [if_neg (fun h => hne (by rw [h]))] at h
      exact R.none_of k' hk' h
  some_of := by
    intro k' hk' e h
    by_cases hkk : k' = k
    · rw [if_pos hkk] at h; cases h
    · rw [if_neg hkk] at h
      obtain ⟨f, h1, h2⟩ := R.some_of k' hk' e h
      refine ⟨f, ?_, h2⟩
      unfold Dir.erase
      rw [if_neg (fun h => hkk (good_escape_injective hk' hk h))]
      exact h1
  tmp := by
    intro k' hk' f h
    unfold Dir.erase at h
    split at h
    · cases h
    · exact R.tmp k' hk' f h
  names := by
    intro n f h
    unfold Dir.erase at h
    split at h
    · cases h
    · exact R.names n f h

/-- Replacing the file of one key. -/
theorem Rel.put {d : Dir} {A : Name → Option (Entry V)} (R : Rel ser d A) {k : Name} (hk : Good k) {f : File}
    {e : Entry V} (h : Holds ser f e) :
    Rel ser (d.put (escape k) f) (fun k' => if k' = k then some e else A k') where
  none_of := by
    intro k' hk' h'
    by_cases hkk : k' = k
    · rw [if_pos hkk] at h'; cases h'
    · rw [if_neg hkk] at h'
      unfold Dir.put
      rw [if_neg (fun h => hkk (good_escape_injective hk' hk h))]
      exact R.none_of k' hk' h'
  some_of := by
    intro k' hk' e' h'
    by_cases hkk : k' = k
    · rw [if_pos hkk] at h'; cases h'
      subst hkk
      exact ⟨f, by simp [Dir.put], h⟩
    · rw [if_neg hkk] at h'
      obtain ⟨f', h1, h2⟩ := R.some_of k' hk' e' h'
      refine ⟨f', ?_, h2⟩
      unfold Dir.put
      rw [if_neg (fun h => hkk (good_escape_injective hk' hk h))]
      exact h1
  tmp := by
    intro k' hk' f' h'
    unfold Dir.put at h'
    rw [if_neg (fun h => good_ne_tmp hk _ h.symm)] at h'
    exact R.tmp k' hk' f' h'
  names := by
    intro n f' h'
    unfold Dir.put at h'
    split at h'
    · rename_i hn; exact ⟨k, hk, .inl hn⟩
    · exact R.names n f' h'

theorem Rel.congr {d : Dir} {A B : Name → Option (Entry V)} (R : Rel ser d A) (h : ∀ k, Good k → A k = B k) :
    Rel ser d B :=
  ⟨fun k hk hb => R.none_of k hk (by rw [h k hk, hb]), fun k hk e he => R.some_of k hk e (by rw [h k hk, he]), R.tmp,
    R.names⟩

theorem Rel.file {d : Dir} {A : Name → Option (Entry V)} (R : Rel ser d A) {k : Name} (hk : Good k) {f : File}
    (hf : d (escape k) = some f) : ∃ e, A k = some e ∧ Holds ser f e := by
  cases hA : A k with
  | none => rw [R.none_of k hk hA] at hf; cases hf
  | some e =>
    obtain ⟨f', hf', hh⟩ := R.some_of k hk e hA
    rw [hf] at hf'; cases hf'
    exact ⟨e, rfl, hh⟩

theorem Rel.store {d : Dir} {A : Name → Option (Entry V)} (R : Rel ser d A) {k : Name} (hk : Good k) (v : V)
    (pieces : List Bytes) (hp : pieces.flatten = ser v) :
    Rel ser ((storeOps k pieces).foldl Dir.apply d) (fun k' => if k' = k then some ⟨v, none, fun _ => none⟩ else A k') := by
  obtain ⟨h1, h2, h3⟩ := storeAll_spec d k pieces (good_ne_tmp hk _)
  have hattr : ∀ a, attrsOf d (tmpName (escape k)) a = none := by
    intro a
    unfold attrsOf
    cases hd : d (tmpName (escape k)) with
    | none => rfl
    | some f => exact R.tmp k hk f hd a
  constructor
  · intro k' hk' h'
    by_cases hkk : k' = k
    · rw [if_pos hkk] at h'; cases h'
    · rw [if_neg hkk] at h'
      rw [h3 _ (fun h => hkk (good_escape_injective hk' hk h)) (good_ne_tmp hk' _)]
      exact R.none_of k' hk' h'
  · intro k' hk' e' h'
    by_cases hkk : k' = k
    · rw [if_pos hkk] at h'; cases h'
      subst hkk
      refine ⟨_, h1, ⟨hp, ?_, fun s hs => (nomatch hs), ?_⟩⟩
      · exact hattr _
      · intro m _; exact hattr _
    · rw [if_neg hkk] at h'
      rw [h3 _ (fun h => hkk (good_escape_injective hk' hk h)) (good_ne_tmp hk' _)]
      exact R.some_of k' hk' e' h'
  · intro k' hk' f hf
    by_cases ht : tmpName (escape k') = tmpName (escape k)
    · rw [ht, h2] at hf; cases hf
    · rw [h3 _ (fun h => good_ne_tmp hk _ h.symm) ht] at hf
      exact R.tmp k' hk' f hf
  · intro n f hf
    by_cases c1 : n = escape k
    · exact ⟨k, hk, .inl c1⟩
    · by_cases c2 : n = tmpName (escape k)
      · exact ⟨k, hk, .inr c2⟩
      · rw [h3 n c1 c2] at hf
        exact R.names n f hf

theorem Rel.stopped {d : Dir} {A : Name → Option (Entry V)} (R : Rel ser d A) {k : Name} (hk : Good k)
    (pieces : List Bytes) (n : Nat) (hn : n < pieces.length + 2) : Rel ser (storeUpTo d k pieces n) A := by
  have ho := storeUpTo_other d k pieces n hn
  constructor
  · intro k' hk' h'
    rw [ho _ (good_ne_tmp hk' _)]
    exact R.none_of k' hk' h'
  · intro k' hk' e' h'
    rw [ho _ (good_ne_tmp hk' _)]
    exact R.some_of k' hk' e' h'
  · intro k' hk' f hf a
    by_cases ht : tmpName (escape k') = tmpName (escape k)
    · rw [ht] at hf
      rw [storeUpTo_tmp d k pieces n hn f hf]
      unfold attrsOf
      cases hd : d (tmpName (escape k)) with
      | none => rfl
      | some f' => exact R.tmp k hk f' hd a
    · rw [ho _ ht] at hf
      exact R.tmp k' hk' f hf a
  · intro m f hf
    by_cases c2 : m = tmpName (escape k)
    · exact ⟨k, hk, .inr c2⟩
    · rw [ho m c2] at hf
      exact R.names m f hf

theorem past_due {now : Nat} {e : Entry V} (h : e.past now) : e.due now := by
  obtain ⟨s, h1, h2⟩ := h
  exact ⟨s, h1, Nat.le_of_lt h2⟩

/-- Maintenance over a listing: the entries of listed names which are due are dropped. -/
theorem Rel.maintain {d : Dir} {A : Name → Option (Entry V)} (R : Rel ser d A) (now : Nat) (ls : List Name) :
    (maintain now d ls).2 = .ok () ∧
    Rel ser (maintain now d ls).1
      (fun k => if escape k ∈ ls then (A k).filter (fun e => ¬ e.due now) else A k) := by
  induction ls generalizing d A with
  | nil => exact ⟨rfl, R.congr (fun k _ => by simp)⟩
  | cons n r ih =>
    -- the head leaves the map as it is
    have keep : (∀ k e, Good k → escape k = n → A k = some e → ¬ e.due now) →
        Store.maintain now d (n :: r) = Store.maintain now d r →
        (Store.maintain now d (n :: r)).2 = .ok () ∧ Rel ser (Store.maintain now d (n :: r)).1
          (fun k => if escape k ∈ n :: r then (A k).filter (fun e => ¬ e.due now) else A k) := by
      intro hno he
      rw [he]
      obtain ⟨i1, i2⟩ := ih R
      refine ⟨i1, i2.congr ?_⟩
      intro k hk
      by_cases c1 : escape k = n
      · have : (A k).filter (fun e => ¬ e.due now) = A k := by
          cases hA : A k with
          | none => rfl
          | some e =>
            have h' := hno k e hk c1 hA
            simp [Option.filter, h']
        rw [this]
        simp
      · simp [c1]
    cases hd : d n with
    | none =>
      refine keep ?_ (by simp [Store.maintain, hd])
      intro k e hk hn hA
      obtain ⟨f, hf, _⟩ := R.some_of k hk e hA
      rw [hn, hd] at hf; cases hf
    | some f =>
      cases hx : f.xattrs (xattrName ttlKey) with
      | none =>
        refine keep ?_ (by simp [Store.maintain, hd, hx])
        rintro k e hk hn hA ⟨s, hs, _⟩
        obtain ⟨f', hf', hh⟩ := R.some_of k hk e hA
        rw [hn, hd] at hf'; cases hf'
        have := hh.expiry
        rw [hx, hs] at this; cases this
      | some b =>
        obtain ⟨k, e, s, hk, hn, hA, hh, hs, hb, hlt⟩ := R.ttl hd hx
        have httl : ttlFromDisk b = .ok s := by rw [hb, ttl_roundtrip s hlt]
        by_cases hnow : now < s * second
        · refine keep ?_ (by simp [Store.maintain, hd, hx, httl, hnow])
          rintro k' e' hk' hn' hA' ⟨s', hs', hle⟩
          have : k' = k := good_escape_injective hk' hk (by rw [hn', hn])
          subst this
          rw [hA] at hA'; cases hA'
          rw [hs] at hs'; cases hs'
          omega
        · have he : Store.maintain now d (n :: r) = Store.maintain now (d.erase n) r := by
            simp [Store.maintain, hd, hx, httl, hnow]
          rw [he, hn]
          obtain ⟨i1, i2⟩ := ih (R.erase hk)
          refine ⟨i1, i2.congr ?_⟩
          intro k' hk'
          by_cases c1 : k' = k
          · subst c1
            have hdue : e.due now := ⟨s, hs, by omega⟩
            simp [hA, Option.filter, hdue]
          · have : escape k' ≠ escape k := fun h => c1 (good_escape_injective hk' hk h)
            simp [c1, this]

end Rel

end Verif.Store
