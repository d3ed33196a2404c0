import Verif.Spec.RvServer
import Verif.Props.Voucher
import Verif.Props.Store
import Verif.Props.Types
/-!
Facts about the rendezvous server's checks and stores, used by `Props/RvServer`.
-/
namespace Verif.RvServer
open Verif Verif.Voucher Verif.Store

/-! ### Checks of a registration -/

theorem takeWhile_items {E : Env} (ps : List (Payload E)) (tail : List (Poll E)) :
    (ps.map Poll.item ++ tail).takeWhile (fun p => !isDone p) =
      ps.map Poll.item ++ tail.takeWhile (fun p => !isDone p) := by
  induction ps with
  | nil => rfl
  | cons p ps ih => simp [isDone, ih]

theorem lastOwner_getLast {E : Env} (key : E.Pub) (ps : List (Payload E)) (p : Payload E)
    (h : ps.getLast? = some p) : lastOwner key ps = p.publicKey := by
  induction ps generalizing key with
  | nil => cases h
  | cons q ps ih =>
    cases ps with
    | nil => cases h; rfl
    | cons r ps => exact ih q.publicKey (by simpa using h)

theorem ownerOf_ok {E : Env} {c : Bool} {v : Voucher E} (w : Wf c v) {k : E.Pub} (h : ownerOf c v = .ok k) :
    ∃ hdr ps, hdrBytes v = .ok hdr ∧ v.header.infoBytes E = .ok (v.header.guid ++ v.header.deviceInfo.toUTF8.toList) ∧
      SignChain E c (v.header.guid ++ v.header.deviceInfo.toUTF8.toList) v.header.mfgKey hdr v.entries.contents ps ∧
      ps ≠ [] ∧ lastOwner v.header.mfgKey ps = k := by
  obtain ⟨hdr, hhdr, ps, tail, h1, h2, h3⟩ := C10_iteration_shape v w (v.entries.contents.length + 2)
  have hlen : ps.length ≤ v.entries.contents.length := by
    have := h2.length
    simp at this; omega
  unfold ownerOf iterLast at h
  rw [h1, takeWhile_items] at h
  rcases h3 with ⟨_, h3⟩ | ⟨h3, _⟩ | ⟨e, m, h3, _⟩ | ⟨m, h3, h4⟩
  · omega
  · rw [h3] at h
    simp [isDone] at h
  · rw [h3] at h
    have : (List.replicate m (Poll.done (E := E))).takeWhile (fun p => !isDone p) = [] := by
      cases m <;> simp [List.replicate_succ, isDone]
    simp [isDone, this] at h
  · rw [h3] at h
    simp only [List.replicate_succ, List.takeWhile_cons, isDone, Bool.not_true, Bool.false_eq_true, if_false,
      List.append_nil, List.getLast?_map] at h
    cases hl : ps.getLast? with
    | none => rw [hl] at h; simp at h
    | some p =>
      rw [hl] at h
      simp only [Option.map_some, Res.ok.injEq] at h
      refine ⟨hdr, ps, hhdr, w.info, ?_, ?_, ?_⟩
      · rwa [List.take_of_length_le h4] at h2
      · rintro rfl; cases hl
      · rw [lastOwner_getLast _ _ _ hl, h]

theorem ownerOf_of {E : Env} {c : Bool} {v : Voucher E} (w : Wf c v) {ps : List (Payload E)}
    (h : verifyAll c v = .ok ps) (hne : ps ≠ []) : ownerOf c v = .ok (lastOwner v.header.mfgKey ps) := by
  obtain ⟨hdr, hhdr⟩ := w.hdr
  have hs := (verifyAll_iff w.info hhdr _).1 h
  have := polls_run w.info v.entries.contents [] 0 v.header.mfgKey hdr ps 2 hs (by simp [prevBytes, hhdr]) (by simp)
  have hp : ∀ st : IterSt E, v.entries.contents.length ≤ st.index → polls c v 2 st = [.done, .done] := by
    intro st hst
    have hn : v.entries.contents[st.index]? = none := by simp [hst]
    cases he : st.errored <;> simp [polls, next, he, hn]
  rw [hp _ (by simp)] at this
  unfold ownerOf iterLast
  rw [show iterStart v = ⟨0, false, v.header.mfgKey⟩ from rfl, this, takeWhile_items]
  simp only [List.takeWhile_cons, isDone, Bool.not_true, Bool.false_eq_true, if_false, List.append_nil,
    List.getLast?_map]
  cases hl : ps.getLast? with
  | none => rw [List.getLast?_eq_none_iff] at hl; exact absurd hl hne
  | some p => simp [lastOwner_getLast _ _ _ hl]

theorem bagHasKey_ok {R : RvEnv} {bag : List R.C.Cert} {k : R.E.Pub} (h : bagHasKey R bag k = .ok true) :
    ∃ cert ∈ bag, ∃ ck, R.C.publicKey cert = some ck ∧ R.sameKey k ck = true := by
  induction bag with
  | nil => cases h
  | cons x r ih =>
    unfold bagHasKey at h
    split at h
    · cases h
    rename_i ck hck
    split at h
    · rename_i hs
      exact ⟨x, by simp, ck, hck, hs⟩
    · obtain ⟨y, hy, rest⟩ := ih h
      exact ⟨y, by simp [hy], rest⟩

theorem mfgTrusted_ok {R : RvEnv} {cfg : Config R} {k : R.E.Pub} (h : mfgTrusted R cfg k = .ok ()) :
    ∀ bag, cfg.mfgKeys = some bag → ∃ cert ∈ bag, ∃ ck, R.C.publicKey cert = some ck ∧ R.sameKey k ck = true := by
  intro bag hb
  unfold mfgTrusted at h
  rw [hb] at h
  simp only at h
  split at h
  · rename_i hk; exact bagHasKey_ok hk
  · cases h
  · cases h
  · cases h

theorem to1Hash_ok {R : RvEnv} {c : Bool} {to1d : Bytes} {k : R.E.Pub} {hash : Hash} :
    to1Hash R c to1d k = .ok hash ↔ ∃ s, parseSign1 R.E c to1d = .ok s ∧
      R.E.verify k s.prot s.payload s.sig = true ∧ R.decTo1 s.payload = some hash := by
  unfold to1Hash
  rw [Res.bind_eq_ok]
  constructor
  · rintro ⟨s, hs, h⟩
    split at h
    · rename_i hv; exact ⟨s, hs, hv, ofOpt_eq_ok.1 h⟩
    · cases h
  · rintro ⟨s, hs, hv, hd⟩
    refine ⟨s, hs, ?_⟩
    rw [if_pos hv, hd]
    rfl

theorem checkTo0Hash_ok {R : RvEnv} {h : Hash} {d : Bytes} : checkTo0Hash R h d = .ok () ↔ Commits R.E h d := by
  unfold checkTo0Hash Commits Env.hashData
  by_cases hp : h.type.isPlain = true
  · rw [if_pos hp]
    simp only [compare_ok, hp, true_and]
  · rw [if_neg hp]
    simp [hp]

theorem deviceKey_ok {R : RvEnv} {cfg : Config R} {chain : Option R.E.Chain} {k : R.E.Pub}
    (h : deviceKey R cfg chain = .ok k) :
    ∃ ch leaf seg root rest, chain = some ch ∧ R.certs ch = seg ++ root :: rest ∧
    (R.certs ch).head? = some leaf ∧
    List.IsChain (fun a b => Rendezvous.Signs R.C b a) (seg ++ [root]) ∧
    (2 ≤ (R.certs ch).length → seg ≠ []) ∧
    (∀ bag, cfg.deviceKeys = some bag → ∃ x ∈ bag, R.certDigest root = R.certDigest x) ∧
    R.certPub leaf = some k := by
  unfold deviceKey at h
  split at h
  · cases h
  rename_i ch
  split at h
  · rename_i leaf hl
    have hk := ofOpt_eq_ok.1 h
    unfold verifyDevice at hl
    split at hl
    · rename_i bag hb
      obtain ⟨seg, root, rest, h1, h2, h3, h4, h5⟩ := Rendezvous.C19_bag _ _ _ _ hl
      refine ⟨ch, leaf, seg, root, rest, rfl, h1, h2, h4, h5, ?_, hk⟩
      intro bag' hb'
      rw [hb] at hb'
      cases hb'
      exact h3
    · rename_i hb
      obtain ⟨seg, root, rest, h1, h2, h3, h4, h5⟩ := Rendezvous.C19_path_to_root _ _ _ hl
      refine ⟨ch, leaf, seg, root, rest, rfl, h1, h2, h4, h5, ?_, hk⟩
      intro bag' hb'
      rw [hb] at hb'
      cases hb'
  · cases h
  · cases h

theorem parseTo0d_wf {R : RvEnv} {c : Bool} {b : Bytes} {t : To0d R} (h : parseTo0d R c b = .ok t) :
    Wf c t.voucher := by
  unfold parseTo0d at h
  simp only [Res.bind_eq_ok] at h
  obtain ⟨⟨a, x⟩, _, raw, _, ⟨v, y⟩, hv, w, _, n, _, h⟩ := h
  cases h
  exact wf_of_deserialize hv

/-- A registration that passes the checks is authentic. -/
theorem checkOwnerSign_ok {R : RvEnv} {c : Bool} {cfg : Config R} {n to0d to1d : Bytes} {r : Registration R}
    (h : checkOwnerSign R c cfg n to0d to1d = .ok r) :
    ∃ t, Authentic R c cfg n to0d to1d r.guid t r.item ∧ r.wait = min t.wait cfg.maxWait := by
  unfold checkOwnerSign at h
  rw [Res.bind_eq_ok] at h
  obtain ⟨t, ht, h⟩ := h
  split at h
  · cases h
  rename_i hn
  simp only [Res.bind_eq_ok] at h
  obtain ⟨⟨⟩, hm, owner, ho, hash, hh, ⟨⟩, hc, k, hk, h⟩ := h
  cases h
  obtain ⟨hdr, ps, h1, h2, h3, h4, h5⟩ := ownerOf_ok (parseTo0d_wf ht) ho
  obtain ⟨s, hs, hv, hd⟩ := to1Hash_ok.1 hh
  refine ⟨t, ⟨ht, (Classical.not_not.1 hn).symm, rfl, mfgTrusted_ok hm, ?_, deviceKey_ok hk, rfl⟩, ?_⟩
  · exact ⟨hdr, _, ps, s, hash, h1, h2, h3, h4, hs, by rw [h5]; exact hv, hd, checkTo0Hash_ok.1 hc⟩
  · simp only
    split <;> omega

theorem getEat_ok {R : RvEnv} {c : Bool} {token : Bytes} {k : R.E.Pub} {eat : Eat}
    (h : getEat R c token k = .ok eat) : SignedToken R c token k eat.nonce := by
  unfold getEat at h
  rw [Res.bind_eq_ok] at h
  obtain ⟨s, hs, h⟩ := h
  split at h
  · rename_i hv
    rw [Res.bind_eq_ok] at h
    obtain ⟨cl, hcl, h⟩ := h
    have hcl := ofOpt_eq_ok.1 hcl
    unfold eatFromMap at h
    split at h
    · cases h
    rename_i n hn
    split at h
    · cases h
    split at h
    · cases h
      obtain ⟨a, b, d⟩ := cl
      simp only at hn
      subst hn
      exact ⟨s, b, d, hs, hv, hcl⟩
    · cases h
    · cases h
  · cases h

theorem parseNonce_hex {n m : Bytes} (h : parseNonce (Types.hexEncode n) = some m) : m = n := by
  unfold parseNonce at h
  rw [Types.hexDecode_encode] at h
  simp only at h
  split at h
  · cases h; rfl
  · cases h

theorem hexEncode_no_dash (b : Bytes) : ∀ ch ∈ Types.hexEncode b, ch ≠ '-' := by
  have hd : ∀ n, n < 16 → Types.hexDigit n ≠ '-' := by decide
  induction b with
  | nil => simp [Types.hexEncode]
  | cons x r ih =>
    intro ch hch
    simp only [Types.hexEncode, List.mem_cons] at hch
    rcases hch with rfl | rfl | h
    · exact hd _ (by have := x.toNat_lt; omega)
    · exact hd _ (by omega)
    · exact ih ch h

theorem guidText_filter (g : Bytes) (hg : g.length = 16) : (guidText g).filter (· ≠ '-') = Types.hexEncode g := by
  have hl := hexEncode_length g
  have hf : ∀ l : List Char, (∀ x ∈ l, x ∈ Types.hexEncode g) → l.filter (· ≠ '-') = l := by
    intro l hl
    rw [List.filter_eq_self]
    intro x hx
    simpa using hexEncode_no_dash g x (hl x hx)
  unfold guidText
  simp only
  generalize hh : Types.hexEncode g = h at hf hl
  rw [hg] at hl
  simp only [List.filter_append]
  rw [hf (h.take 8) (fun x hx => List.mem_of_mem_take hx),
    hf ((h.drop 8).take 4) (fun x hx => List.mem_of_mem_drop (List.mem_of_mem_take hx)),
    hf ((h.drop 12).take 4) (fun x hx => List.mem_of_mem_drop (List.mem_of_mem_take hx)),
    hf ((h.drop 16).take 4) (fun x hx => List.mem_of_mem_drop (List.mem_of_mem_take hx)),
    hf (h.drop 20) (fun x hx => List.mem_of_mem_drop hx)]
  have e : ['-'].filter (· ≠ '-') = ([] : List Char) := by decide
  rw [e]
  simp only [List.append_nil]
  have e1 : (h.drop 16).take 4 ++ h.drop 20 = h.drop 16 := by
    rw [show h.drop 20 = (h.drop 16).drop 4 by rw [List.drop_drop], List.take_append_drop]
  have e2 : (h.drop 12).take 4 ++ h.drop 16 = h.drop 12 := by
    rw [show h.drop 16 = (h.drop 12).drop 4 by rw [List.drop_drop], List.take_append_drop]
  have e3 : (h.drop 8).take 4 ++ h.drop 12 = h.drop 8 := by
    rw [show h.drop 12 = (h.drop 8).drop 4 by rw [List.drop_drop], List.take_append_drop]
  rw [List.append_assoc, e1, List.append_assoc, e2, List.append_assoc, e3, List.take_append_drop]

theorem parseGuid_text {g g' : Bytes} (hg : g.length = 16) (h : parseGuid (guidText g) = some g') : g' = g := by
  unfold parseGuid at h
  rw [guidText_filter g hg, Types.hexDecode_encode] at h
  simp only [hg] at h
  cases h
  rfl

theorem parseGuid_of {g : Bytes} (hg : g.length = 16) : parseGuid (guidText g) = some g := by
  unfold parseGuid
  rw [guidText_filter g hg, Types.hexDecode_encode]
  simp [hg]

theorem guidKey_some {g : Bytes} {k : Name} (h : guidKey g = some k) : g.length = 16 ∧ k = guidText g := by
  unfold guidKey at h
  split at h
  · rename_i hg; cases h; exact ⟨hg, rfl⟩
  · cases h

/-! ### Stores -/

section
variable {V : Type} {ser : V → Bytes} {de : Bytes → Option V}

/-- A directory contains a file for `k` with value `v`. -/
def DirHolds (de : Bytes → Option V) (d : Dir) (k : Name) (v : V) : Prop :=
  ∃ f, d (escape k) = some f ∧ de f.content = some v

/-- A table contains a row for `k` with value `v`. -/
def DbHolds (de : Bytes → Option V) (t : Table) (k : Name) (v : V) : Prop :=
  ∃ r ∈ t, r.guid = k ∧ de r.contents = some v

theorem load_some {now : Nat} {d : Dir} {k : Name} {v : V} (h : (Store.load de now d k).2 = .ok (some v)) :
    ∃ f, d (escape k) = some f ∧ fileExpired now f = .ok false ∧ de f.content = some v ∧
      (Store.load de now d k).1 = d := by
  unfold Store.load at h ⊢
  cases hd : d (escape k) with
  | none => rw [hd] at h; cases h
  | some f =>
    rw [hd] at h
    simp only at h ⊢
    refine ⟨f, rfl, ?_⟩
    cases he : fileExpired now f with
    | err e => rw [he] at h; cases h
    | panic => rw [he] at h; cases h
    | ok b =>
      rw [he] at h
      cases b with
      | true => cases h
      | false =>
        simp only [decodeFile] at h ⊢
        cases hde : de f.content with
        | none => rw [hde] at h; cases h
        | some x => rw [hde] at h; cases h; simp

theorem load_sub {now : Nat} {d : Dir} {k n : Name} {f : File} (hf : (Store.load de now d k).1 n = some f) :
    d n = some f := by
  unfold Store.load at hf
  split at hf
  · exact hf
  · split at hf
    · exact hf
    · exact hf
    · simp only [Dir.erase] at hf
      split at hf
      · cases hf
      · exact hf
    · split at hf <;> exact hf

/-- Storing under a proper key: the entry's content is the value, other entries stay. -/
theorem store_good {d : Dir} {k : Name} (hk : Good k) (b : Bytes) :
    (Store.store d k [b]).2 = .ok () ∧
    (Store.store d k [b]).1 (escape k) = some ⟨b, attrsOf d (tmpName (escape k))⟩ ∧
    (Store.store d k [b]).1 (tmpName (escape k)) = none ∧
    ∀ m, m ≠ escape k → m ≠ tmpName (escape k) → (Store.store d k [b]).1 m = d m := by
  obtain ⟨hs1, hs2, hs3⟩ := good_not_special hk
  have hst : Store.store d k [b] = ((storeOps k [b]).foldl Dir.apply d, .ok ()) := by
    unfold Store.store
    rw [if_neg hs1, if_neg (by simp only [not_or]; exact ⟨hs2, hs3⟩)]
  rw [hst]
  have := storeAll_spec d k [b] (good_ne_tmp hk _)
  simpa using this

/-- Every file of one directory is in the other. -/
def SubDir (d' d : Dir) : Prop := ∀ n f, d' n = some f → d n = some f

theorem erase_sub {d d' : Dir} (h : SubDir d' d) (x : Name) : SubDir (d'.erase x) d := by
  intro n f hf
  simp only [Dir.erase] at hf
  split at hf
  · cases hf
  · exact h n f hf

theorem maintain_subDir (now : Nat) (ls : List Name) (d0 d : Dir) (h : SubDir d d0) :
    SubDir (Store.maintain now d ls).1 d0 := by
  induction ls generalizing d with
  | nil => exact h
  | cons x r ih =>
    unfold Store.maintain
    split
    · exact ih d h
    · split
      · exact ih d h
      · split
        · exact h
        · exact h
        · split
          · exact ih d h
          · exact ih _ (erase_sub h x)

theorem maintain_sub (now : Nat) (ls : List Name) (d : Dir) (n : Name) (f : File)
    (h : (Store.maintain now d ls).1 n = some f) : d n = some f :=
  maintain_subDir now ls d d (fun _ _ h => h) n f h

theorem dir_sound (hc : ∀ v, de (ser v) = some v) : Sound (dirBackend ser de) (DirHolds de) where
  held d k v h := by
    obtain ⟨now, h⟩ := h
    obtain ⟨f, hf, _, hd, _⟩ := load_some h
    exact ⟨f, hf, hd⟩
  empty k v h := by
    obtain ⟨f, hf, _⟩ := h
    cases hf
  load now d k k' v h := by
    obtain ⟨f, hf, h2⟩ := h
    exact ⟨f, load_sub hf, h2⟩
  put d k k' v v' hk hk' h := by
    obtain ⟨f, hf, h2⟩ := h
    obtain ⟨_, h3, _, h5⟩ := store_good (d := d) hk (ser v)
    by_cases he : k' = k
    · subst he
      have hf' : f.content = ser v := by
        have : some f = some _ := hf.symm.trans h3
        cases this; rfl
      rw [hf', hc] at h2
      cases h2
      exact .inr ⟨rfl, rfl⟩
    · refine .inl ⟨f, ?_, h2⟩
      rw [← h5 _ (fun hh => he (good_escape_injective hk' hk hh)) (good_ne_tmp hk' _)]
      exact hf
  setTtl now d k dur k' v hk hk' h := by
    obtain ⟨f, hf, h2⟩ := h
    have hf : (Store.setMeta now d k ttlKey (.after dur)).1 (escape k') = some f := hf
    unfold Store.setMeta at hf
    split at hf
    · exact ⟨f, hf, h2⟩
    rename_i f0 hf0
    split at hf
    · simp only [Dir.put] at hf
      split at hf
      · rename_i he
        cases hf
        exact ⟨f0, by rw [he]; exact hf0, h2⟩
      · exact ⟨f, hf, h2⟩
    · exact ⟨f, hf, h2⟩
    · exact ⟨f, hf, h2⟩
  maintain now ls d k v h := by
    obtain ⟨f, hf, h2⟩ := h
    exact ⟨f, maintain_sub _ _ _ _ _ hf, h2⟩

theorem db_sound (hc : ∀ v, de (ser v) = some v) : Sound (dbBackend ser de) (DbHolds de) where
  held t k v h := by
    obtain ⟨_, h⟩ := h
    have h : dbLoad de t k = .ok (some v) := h
    unfold dbLoad at h
    split at h
    · cases h
    rename_i r hr
    split at h
    · rename_i x hx
      cases h
      exact ⟨r, List.mem_of_find?_eq_some hr, by simpa using List.find?_some hr, hx⟩
    · cases h
  empty k v h := by
    obtain ⟨r, hr, _⟩ := h
    cases hr
  load now t k k' v h := h
  put t k k' v v' hk hk' h := by
    have h : DbHolds de (dbStore t k (ser v)).1 k' v' := h
    unfold dbStore at h
    split at h
    · exact .inl h
    · obtain ⟨r, hr, h1, h2⟩ := h
      rcases List.mem_append.1 hr with hr | hr
      · exact .inl ⟨r, hr, h1, h2⟩
      · simp only [List.mem_singleton] at hr
        subst hr
        simp only at h1 h2
        rw [hc] at h2
        cases h2
        exact .inr ⟨h1.symm, rfl⟩
  setTtl now t k dur k' v hk hk' h := by
    have h : DbHolds de (dbSetMeta .rendezvous now t k ttlKey (.after dur)).1 k' v := h
    unfold dbSetMeta at h
    simp only at h
    split at h
    · obtain ⟨r, hr, h1, h2⟩ := h
      obtain ⟨r0, hr0, he⟩ := List.mem_map.1 hr
      refine ⟨r0, hr0, ?_⟩
      split at he <;> (subst he; exact ⟨h1, h2⟩)
    · exact h
    · exact h
  maintain now ls t k v h := by
    obtain ⟨r, hr, h1, h2⟩ := h
    have hr : r ∈ dbMaintain .rendezvous now t := hr
    unfold dbMaintain at hr
    exact ⟨r, (List.mem_filter.1 hr).1, h1, h2⟩

end

end Verif.RvServer
