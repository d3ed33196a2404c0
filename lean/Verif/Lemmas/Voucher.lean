import Verif.Spec.Voucher
import Verif.Lemmas.Cbor
/-! Helper lemmas for ownership vouchers. -/
namespace Verif.Voucher
open Verif Verif.Cbor Verif.Cbor.Spec

variable {E : Env} {c : Bool}

theorem compare_ok {a b : Hash} : a.compare b = .ok () ↔ a.value = b.value := by
  unfold Hash.compare memcmpEq
  split
  · rename_i h
    split at h
    · cases h
    · simp only [Res.ok.injEq, beq_iff_eq] at h
      simp [h]
  · rename_i h
    split at h
    · cases h
    · simp only [Res.ok.injEq, beq_eq_false_iff_ne] at h
      simp [h]
  · rename_i h
    split at h <;> cases h
  · rename_i h
    split at h
    · rename_i hl
      constructor
      · intro h; cases h
      · intro h; exact absurd (congrArg List.length h) hl
    · cases h

theorem hashData_ok {t : HashType} {d : Bytes} {h : Hash} :
    E.hashData t d = .ok h ↔ t.isPlain = true ∧ h = ⟨t, E.digest t d⟩ := by
  unfold Env.hashData
  split
  · rename_i ht
    simp only [Res.ok.injEq, ht, true_and]
    exact eq_comm
  · rename_i ht
    simp [ht]

theorem innerHash_plain (t : HashType) : t.innerHash.isPlain = true := by cases t <;> rfl

theorem hashType_plain (v : Voucher E) : (hashType v).isPlain = true := innerHash_plain _

theorem hdrHash_ok {v : Voucher E} {t : HashType} {h : Hash} :
    hdrHash v t = .ok h ↔ ∃ d, hdrBytes v = .ok d ∧ t.isPlain = true ∧ h = ⟨t, E.digest t d⟩ := by
  unfold hdrHash
  rw [Res.bind_eq_ok]
  simp only [hashData_ok]

theorem infoHash_ok {h : Header E} {t : HashType} {x : Hash} :
    h.infoHash E t = .ok x ↔ ∃ d, h.infoBytes E = .ok d ∧ t.isPlain = true ∧ x = ⟨t, E.digest t d⟩ := by
  unfold Header.infoHash
  rw [Res.bind_eq_ok]
  simp only [hashData_ok]

/-- The bytes preceding entry `i`. -/
def prevBytes (v : Voucher E) (i : Nat) : Res Err Bytes :=
  if i = 0 then hdrBytes v else getRaw v.entries (i - 1)

theorem prevHash_ok {v : Voucher E} {i : Nat} {t : HashType} {h : Hash} :
    prevHash v i t = .ok h ↔ ∃ d, prevBytes v i = .ok d ∧ t.isPlain = true ∧ h = ⟨t, E.digest t d⟩ := by
  unfold prevHash prevBytes
  split
  · exact hdrHash_ok
  · rw [Res.bind_eq_ok]; simp only [hashData_ok]

theorem getPayload_ok {key : E.Pub} {s : Sign1} {p : Payload E} :
    getPayload key s = .ok p ↔
      E.verify key s.prot s.payload s.sig = true ∧ E.decPayload s.payload = some p := by
  unfold getPayload
  split
  · rename_i h; rw [ofOpt_eq_ok]; simp [h]
  · rename_i h; simp [h]

theorem checkEntry_ok {v : Voucher E} {key : E.Pub} {i : Nat} {raw : Bytes} {p : Payload E} :
    checkEntry c v key i raw = .ok p ↔
      ∃ s prev info, parseSign1 E c raw = .ok s ∧ E.verify key s.prot s.payload s.sig = true ∧
        E.decPayload s.payload = some p ∧ prevBytes v i = .ok prev ∧ Commits E p.hashPrev prev ∧
        v.header.infoBytes E = .ok info ∧ Commits E p.hashHdrInfo info := by
  unfold checkEntry
  constructor
  · intro h
    obtain ⟨s, h1, h⟩ := Res.bind_eq_ok.1 h
    obtain ⟨p', h2, h⟩ := Res.bind_eq_ok.1 h
    obtain ⟨hp, h3, h⟩ := Res.bind_eq_ok.1 h
    obtain ⟨_, h4, h⟩ := Res.bind_eq_ok.1 h
    obtain ⟨hh, h5, h⟩ := Res.bind_eq_ok.1 h
    obtain ⟨_, h6, h⟩ := Res.bind_eq_ok.1 h
    cases h
    obtain ⟨hv, hd⟩ := getPayload_ok.1 h2
    obtain ⟨prev, e1, e2, rfl⟩ := prevHash_ok.1 h3
    obtain ⟨info, f1, f2, rfl⟩ := infoHash_ok.1 h5
    exact ⟨s, prev, info, h1, hv, hd, e1, ⟨e2, compare_ok.1 h4⟩, f1, ⟨f2, compare_ok.1 h6⟩⟩
  · rintro ⟨s, prev, info, h1, hv, hd, e1, ⟨e2, e3⟩, f1, ⟨f2, f3⟩⟩
    refine Res.bind_eq_ok.2 ⟨s, h1, Res.bind_eq_ok.2 ⟨p, getPayload_ok.2 ⟨hv, hd⟩,
      Res.bind_eq_ok.2 ⟨_, prevHash_ok.2 ⟨prev, e1, e2, rfl⟩, Res.bind_eq_ok.2 ⟨(), compare_ok.2 e3,
        Res.bind_eq_ok.2 ⟨_, infoHash_ok.2 ⟨info, f1, f2, rfl⟩, Res.bind_eq_ok.2 ⟨(), compare_ok.2 f3, rfl⟩⟩⟩⟩⟩⟩

theorem prevBytes_succ {v : Voucher E} {i : Nat} {raw : Bytes} (h : v.entries.contents[i]? = some raw) :
    prevBytes v (i + 1) = .ok raw := by
  simp [prevBytes, getRaw, h]

/-- Collecting the payloads of `raws`, the entries from position `i` on, succeeds exactly on valid chains. -/
theorem verifyFrom_iff {v : Voucher E} {info : Bytes} (hi : v.header.infoBytes E = .ok info) :
    ∀ (raws : List Bytes) (i : Nat) (key : E.Pub) (prev : Bytes) (ps : List (Payload E)),
      prevBytes v i = .ok prev → (∀ j, raws[j]? = v.entries.contents[i + j]? ∨ raws[j]? = none) →
      (verifyFrom c v key i raws = .ok ps ↔ SignChain E c info key prev raws ps) := by
  intro raws
  induction raws with
  | nil =>
    intro i key prev ps _ _
    simp only [verifyFrom, Res.ok.injEq]
    constructor
    · rintro rfl; exact .nil
    · intro h; cases h; rfl
  | cons raw raws ih =>
    intro i key prev ps hp hr
    have hraw : v.entries.contents[i]? = some raw := by
      have := hr 0; simp at this; exact this.symm
    have hnext := prevBytes_succ hraw
    have hr' : ∀ j, raws[j]? = v.entries.contents[i + 1 + j]? ∨ raws[j]? = none := by
      intro j
      have := hr (j + 1)
      simp only [List.getElem?_cons_succ] at this
      rwa [show i + 1 + j = i + (j + 1) by omega]
    constructor
    · intro h
      simp only [verifyFrom] at h
      obtain ⟨p, h1, h⟩ := Res.bind_eq_ok.1 h
      obtain ⟨ps', h2, h⟩ := Res.bind_eq_ok.1 h
      cases h
      obtain ⟨s, prev', info', e1, e2, e3, e4, e5, e6, e7⟩ := checkEntry_ok.1 h1
      rw [hp] at e4; cases e4
      rw [hi] at e6; cases e6
      exact .cons e1 e2 e3 e5 e7 ((ih _ _ _ _ hnext hr').1 h2)
    · intro h
      cases h with
      | cons hs hv hpd hprev hinfo rest =>
        simp only [verifyFrom]
        exact Res.bind_eq_ok.2 ⟨_, checkEntry_ok.2 ⟨_, _, _, hs, hv, hpd, hp, hprev, hi, hinfo⟩,
          Res.bind_eq_ok.2 ⟨_, (ih _ _ _ _ hnext hr').2 rest, rfl⟩⟩

theorem verifyAll_iff {v : Voucher E} {info hdr : Bytes} (hi : v.header.infoBytes E = .ok info)
    (hh : hdrBytes v = .ok hdr) (ps : List (Payload E)) :
    verifyAll c v = .ok ps ↔ SignChain E c info v.header.mfgKey hdr v.entries.contents ps := by
  unfold verifyAll
  exact verifyFrom_iff hi _ _ _ _ _ (by simp [prevBytes, hh]) (by intro j; left; simp)

theorem SignChain.length {info : Bytes} {key : E.Pub} {prev : Bytes} {raws : List Bytes}
    {ps : List (Payload E)} (h : SignChain E c info key prev raws ps) : raws.length = ps.length := by
  induction h with
  | nil => rfl
  | cons _ _ _ _ _ _ ih => simp [ih]

/-- Appending an entry signed by the current owner extends the chain. -/
theorem SignChain.append {info : Bytes} {key : E.Pub} {prev : Bytes} {raws : List Bytes}
    {ps : List (Payload E)} (h : SignChain E c info key prev raws ps) {raw : Bytes} {s : Sign1}
    {p : Payload E} (hs : parseSign1 E c raw = .ok s)
    (hv : E.verify (lastOwner key ps) s.prot s.payload s.sig = true)
    (hp : E.decPayload s.payload = some p)
    (hprev : Commits E p.hashPrev ((raws.getLast?).getD prev))
    (hinfo : Commits E p.hashHdrInfo info) :
    SignChain E c info key prev (raws ++ [raw]) (ps ++ [p]) := by
  induction h with
  | nil => exact .cons hs hv hp (by simpa using hprev) hinfo .nil
  | @cons key prev raw' raws s' p' ps hs' hv' hp' hprev' hinfo' rest ih =>
    refine .cons hs' hv' hp' hprev' hinfo' (ih hv ?_)
    rw [List.getLast?_cons] at hprev
    simpa using hprev

theorem lastOwner_append (key : E.Pub) (ps : List (Payload E)) (p : Payload E) :
    lastOwner key (ps ++ [p]) = p.publicKey := by
  induction ps generalizing key with
  | nil => rfl
  | cons q ps ih => exact ih _

/-- The chain's last raw entry carries the last payload. -/
theorem SignChain.last {info : Bytes} {key : E.Pub} {prev : Bytes} {raws : List Bytes}
    {ps : List (Payload E)} (h : SignChain E c info key prev raws ps) {raw : Bytes}
    (hl : raws.getLast? = some raw) :
    ∃ s p, parseSign1 E c raw = .ok s ∧ E.decPayload s.payload = some p ∧ p.publicKey = lastOwner key ps := by
  induction h with
  | nil => cases hl
  | @cons key prev raw' raws s' p' ps hs' hv' hp' hprev' hinfo' rest ih =>
    cases rest with
    | nil =>
      simp only [List.getLast?_singleton, Option.some.injEq] at hl
      subst hl
      exact ⟨s', p', hs', hp', rfl⟩
    | cons _ _ _ _ _ _ =>
      rw [List.getLast?_cons_cons] at hl
      exact ih hl

theorem isItem_emptyMap : IsItem emptyMap := by
  have := IsItem.map (v := 0) (h := [UInt8.ofNat (32 * 5 + 0)]) (items := [])
    (.imm (by omega) (by omega)) (by omega) rfl (by simp)
  simpa [emptyMap] using this

/-- Writing and re-reading an array of complete items, in the form used below. -/
theorem roundtrip (size : Option Nat) (a : ParsedArray) (rest : Bytes)
    (hitems : ∀ i ∈ a.contents, IsItem i)
    (hlen : a.contents.length ≤ 65535) (htag : ∀ t, a.tag = some t → t ≤ 65535)
    (hsize : size = none ∨ (size = some a.contents.length ∧ a.contents ≠ [])) :
    ∃ bs, Cbor.serialize a = .ok bs ∧ Cbor.deserialize c size (bs ++ rest) = .ok (a, rest) := by
  obtain ⟨ah, hae, hah⟩ := isHead_encode (m := 4) (by omega) hlen
  obtain ⟨tag, l⟩ := a
  cases tag with
  | none =>
    refine ⟨[] ++ ah ++ l.flatten, ?_, ?_⟩
    · simp only [Cbor.serialize]
      rw [show (pure [] : Res ParseErr Bytes) = .ok [] from rfl, Res.bind_ok, hae]
      rfl
    · exact deserialize_of_grammar (.inl ⟨rfl, rfl⟩) hah hitems hsize
  | some t =>
    obtain ⟨th, hte, hth⟩ := isHead_encode (m := 6) (by omega) (htag t rfl)
    refine ⟨th ++ ah ++ l.flatten, ?_, ?_⟩
    · simp only [Cbor.serialize]
      rw [hte, Res.bind_ok, hae]
      rfl
    · exact deserialize_of_grammar (.inr ⟨t, rfl, hth⟩) hah hitems hsize

/-- A freshly signed payload is written, and read back as the same COSE_Sign1, which verifies. -/
theorem signRaw_ok (L : CodecLaws E) {k : E.Priv} (hk : GoodKey E k) {payload : Bytes}
    (hsz : payload.length < 2 ^ 63) :
    ∃ raw s, signRaw E k payload = .ok raw ∧ parseSign1 E c raw = .ok s ∧ s.payload = payload ∧
      IsItem raw ∧
      ∀ pub, E.keyMatches pub k = true → E.verify pub s.prot s.payload s.sig = true := by
  obtain ⟨prot, sig, h1, h2, h3, h4, h5⟩ := hk payload hsz
  have hit : ∀ i ∈ [E.encBytes prot, emptyMap, E.encBytes payload, E.encBytes sig], IsItem i := by
    intro i hi
    simp only [List.mem_cons, List.not_mem_nil, or_false] at hi
    rcases hi with rfl | rfl | rfl | rfl
    · exact L.bytes_item _ h2
    · exact isItem_emptyMap
    · exact L.bytes_item _ hsz
    · exact L.bytes_item _ h3
  obtain ⟨bs, hb1, hb2⟩ := roundtrip (c := c) (some 4)
    ⟨some 18, [E.encBytes prot, emptyMap, E.encBytes payload, E.encBytes sig]⟩ [] hit
    (by simp) (by intro t h; cases h; omega) (.inr ⟨rfl, by simp⟩)
  refine ⟨bs, ⟨prot, emptyMap, payload, sig⟩, ?_, ?_, rfl, ?_, h5⟩
  · simp only [signRaw, h1, ofOpt_some, Res.bind_ok, hb1, liftP_ok]
  · rw [List.append_nil] at hb2
    simp only [parseSign1, hb2, liftP_ok, Res.bind_ok]
    simp [getLeaf, getRaw, L.bytes_dec _ h2, L.bytes_dec _ hsz, L.bytes_dec _ h3, h4]
  · obtain ⟨ah, hae, hah⟩ := isHead_encode (m := 4) (v := 4) (by omega) (by omega)
    obtain ⟨th, hte, hth⟩ := isHead_encode (m := 6) (v := 18) (by omega) (by omega)
    have : bs = th ++ (ah ++ [E.encBytes prot, emptyMap, E.encBytes payload, E.encBytes sig].flatten) := by
      simp only [Cbor.serialize, hte, Res.bind_ok] at hb1
      rw [show [E.encBytes prot, emptyMap, E.encBytes payload, E.encBytes sig].length = 4 from rfl,
        hae, Res.bind_ok] at hb1
      cases hb1; simp
    rw [this]
    exact .tag hth (.array hah rfl hit)

theorem Wf.hdr {v : Voucher E} (h : Wf c v) : ∃ d, hdrBytes v = .ok d := by
  obtain ⟨hb, h1, _⟩ := h.header
  have h2 := h.hmac
  unfold getLeaf at h2
  unfold hdrBytes
  rw [h1]
  simp only [Res.bind_ok, getRaw]
  split at h2
  · cases h2
  · rename_i raw hraw
    exact ⟨hb ++ raw, rfl⟩

theorem header_info {inp : Bytes} {h : Header E} (hd : Header.deserialize E c inp = .ok h) :
    h.infoBytes E = .ok (h.guid ++ h.deviceInfo.toUTF8.toList) := by
  unfold Header.deserialize at hd
  obtain ⟨⟨a, r⟩, h1, hd⟩ := Res.bind_eq_ok.1 hd
  obtain ⟨v, h2, hd⟩ := Res.bind_eq_ok.1 hd
  obtain ⟨g, h3, hd⟩ := Res.bind_eq_ok.1 hd
  obtain ⟨rv, h4, hd⟩ := Res.bind_eq_ok.1 hd
  obtain ⟨i, h5, hd⟩ := Res.bind_eq_ok.1 hd
  split at hd
  · cases hd
  · obtain ⟨k, h6, hd⟩ := Res.bind_eq_ok.1 hd
    obtain ⟨ch, h7, hd⟩ := Res.bind_eq_ok.1 hd
    cases hd
    simp [Header.infoBytes, h3, h5]

theorem Wf.info {v : Voucher E} (h : Wf c v) :
    v.header.infoBytes E = .ok (v.header.guid ++ v.header.deviceInfo.toUTF8.toList) := by
  obtain ⟨hb, _, h2⟩ := h.header
  exact header_info h2

theorem wf_of_fromParsedArray {a : ParsedArray} {v : Voucher E} (hl : a.contents.length = 5)
    (h : fromParsedArray c a = .ok v) : Wf c v ∧ v.contents = a := by
  unfold fromParsedArray at h
  obtain ⟨ver, h1, h⟩ := Res.bind_eq_ok.1 h
  obtain ⟨hb, h2, h⟩ := Res.bind_eq_ok.1 h
  obtain ⟨hd, h3, h⟩ := Res.bind_eq_ok.1 h
  obtain ⟨hm, h4, h⟩ := Res.bind_eq_ok.1 h
  obtain ⟨ch, h5, h⟩ := Res.bind_eq_ok.1 h
  obtain ⟨er, h6, h⟩ := Res.bind_eq_ok.1 h
  obtain ⟨⟨en, r⟩, h7, h⟩ := Res.bind_eq_ok.1 h
  cases h
  exact ⟨⟨hl, h1, ⟨hb, h2, h3⟩, h4, h5, er, r, h6, liftP_eq_ok.1 h7⟩, rfl⟩

theorem fromParsedArray_of_wf {v : Voucher E} (h : Wf c v) : fromParsedArray c v.contents = .ok v := by
  obtain ⟨_, h1, ⟨hb, h2, h3⟩, h4, h5, er, r, h6, h7⟩ := h
  unfold fromParsedArray
  rw [h1, Res.bind_ok, h2, Res.bind_ok, h3, Res.bind_ok, h4, Res.bind_ok, h5, Res.bind_ok, h6,
    Res.bind_ok, h7, liftP_ok, Res.bind_ok]
  rfl

/-- A read voucher is internally consistent. -/
theorem wf_of_deserialize {inp rest : Bytes} {v : Voucher E}
    (h : deserialize c inp = .ok (v, rest)) : Wf c v := by
  unfold deserialize at h
  split at h
  · cases h
  · cases h
  · cases h
  · rename_i a r ha
    obtain ⟨v', h1, h2⟩ := Res.bind_eq_ok.1 h
    cases h2
    obtain ⟨_, _, _, _, _, _, hn⟩ : ∃ th ah, inp = th ++ ah ++ a.contents.flatten ++ rest ∧
      ((a.tag = none ∧ th = []) ∨ ∃ t, a.tag = some t ∧ IsHead 6 t th) ∧
      IsHead 4 a.contents.length ah ∧ (∀ i ∈ a.contents, IsItemWrap i) ∧
      (∀ n, some 5 = some n → a.contents.length = n) := by
      cases c with
      | false => exact grammar_of_deserialize itemClass_isItemWrap (by simp) ha
      | true =>
        obtain ⟨th, ah, h1, h2, h3, h4, h5⟩ := grammar_of_deserialize itemClass_isItem (by simp) ha
        exact ⟨th, ah, h1, h2, h3, fun i hi => isItem_wrap (h4 i hi), h5⟩
    exact (wf_of_fromParsedArray (hn 5 rfl) h1).1

end Verif.Voucher

namespace Verif.Voucher
open Verif Verif.Cbor Verif.Cbor.Spec

variable {E : Env} {c : Bool}

/-! ### Writing and reading back -/

/-- A header value whose written form reads back to itself. -/
structure HeaderWf (h : Header E) : Prop where
  tag : ∀ t, h.contents.tag = some t → t ≤ 65535
  len : h.contents.contents.length = 6
  items : ∀ i ∈ h.contents.contents, IsItem i
  version : getLeaf E.decVersion h.contents 0 = .ok h.version
  guid : getLeaf E.decGuid h.contents 1 = .ok h.guid
  rv : getLeaf E.decRv h.contents 2 = .ok h.rv
  info : getLeaf E.decText h.contents 3 = .ok h.deviceInfo
  infoOk : deviceInfoOk h.deviceInfo = true
  key : getLeaf E.decPub h.contents 4 = .ok h.mfgKey
  chainHash : getLeaf E.decHashOpt h.contents 5 = .ok h.chainHash

theorem header_roundtrip {h : Header E} (w : HeaderWf h) (rest : Bytes) :
    ∃ bs, Cbor.serialize h.contents = .ok bs ∧ Header.deserialize E c (bs ++ rest) = .ok h := by
  obtain ⟨bs, h1, h2⟩ := roundtrip (c := c) (some 6) h.contents rest w.items (by rw [w.len]; omega) w.tag
    (.inr ⟨by rw [w.len], by intro h0; have := w.len; rw [h0] at this; cases this⟩)
  refine ⟨bs, h1, ?_⟩
  unfold Header.deserialize
  rw [h2, liftP_ok, Res.bind_ok]
  simp only
  rw [w.version, Res.bind_ok, w.guid, Res.bind_ok, w.rv, Res.bind_ok, w.info, Res.bind_ok, w.infoOk]
  simp only [Bool.not_true, Bool.false_eq_true, if_false]
  rw [w.key, Res.bind_ok, w.chainHash, Res.bind_ok]
  rfl

/-- Sizes of the parts of a header are those of objects in memory. -/
structure SmallHeader (E : Env) (rv : E.Rv) (info : String) (key : E.Pub) (ch : Option Hash) : Prop where
  rv : (E.encRv rv).length < 2 ^ 63
  info : (E.encText info).length < 2 ^ 63
  key : (E.encPub key).length < 2 ^ 63
  ch : (E.encHashOpt ch).length < 2 ^ 63

theorem headerWf_new (L : LeafLaws E) {version : Nat} (hv : version = 100 ∨ version = 101) {guid : Bytes}
    (hg : guid.length = 16) {rv : E.Rv} {info : String} (hi : deviceInfoOk info = true) {key : E.Pub}
    {ch : Hash} (hs : SmallHeader E rv info key (some ch)) :
    HeaderWf (Header.new E version guid rv info key (some ch)) where
  tag := by intro t h; cases h
  len := rfl
  items := by
    intro i hi
    simp only [Header.new, List.mem_cons, List.not_mem_nil, or_false] at hi
    rcases hi with rfl | rfl | rfl | rfl | rfl | rfl
    · exact L.version_item _ hv
    · exact L.guid_item _ hg
    · exact L.rv_item _ hs.rv
    · exact L.text_item _ hs.info
    · exact L.pub_item _ hs.key
    · exact L.hashOpt_item _ hs.ch
  version := by simp [getLeaf, Header.new, L.version_dec _ hv]
  guid := by simp [getLeaf, Header.new, L.guid_dec _ hg]
  rv := by simp [getLeaf, Header.new, L.rv_dec _ hs.rv]
  info := by simp [getLeaf, Header.new, L.text_dec _ hs.info]
  infoOk := hi
  key := by simp [getLeaf, Header.new, L.pub_dec _ hs.key]
  chainHash := by simp [getLeaf, Header.new, L.hashOpt_dec _ hs.ch]

/-- A voucher value whose written form reads back to itself. -/
structure Rewritable (c : Bool) (v : Voucher E) : Prop where
  wf : Wf c v
  tag : ∀ t, v.contents.tag = some t → t ≤ 65535
  items : ∀ i ∈ v.contents.contents, IsItem i

theorem rewritable_roundtrip {v : Voucher E} (w : Rewritable c v) (rest : Bytes) :
    ∃ bs, serialize v = .ok bs ∧ deserialize c (bs ++ rest) = .ok (v, rest) := by
  obtain ⟨bs, h1, h2⟩ := roundtrip (c := c) (some 5) v.contents rest w.items (by rw [w.wf.len]; omega) w.tag
    (.inr ⟨by rw [w.wf.len], by intro h0; have := w.wf.len; rw [h0] at this; cases this⟩)
  refine ⟨bs, by simp [serialize, h1], ?_⟩
  unfold deserialize
  rw [h2]
  simp only
  rw [fromParsedArray_of_wf w.wf]
  rfl

theorem isItem_array {l : List Bytes} {h : Bytes} {tag : Option Nat} (ht : ∀ t, tag = some t → t ≤ 65535)
    (hl : ∀ i ∈ l, IsItem i) (hs : Cbor.serialize ⟨tag, l⟩ = .ok h) (hn : l.length ≤ 65535) : IsItem h := by
  obtain ⟨ah, hae, hah⟩ := isHead_encode (m := 4) (by omega) hn
  cases tag with
  | none =>
    simp only [Cbor.serialize] at hs
    rw [show (pure [] : Res ParseErr Bytes) = .ok [] from rfl, Res.bind_ok, hae, Res.bind_ok] at hs
    cases hs
    exact .array hah rfl hl
  | some t =>
    obtain ⟨th, hte, hth⟩ := isHead_encode (m := 6) (by omega) (ht t rfl)
    simp only [Cbor.serialize] at hs
    rw [hte, Res.bind_ok, hae, Res.bind_ok] at hs
    cases hs
    rw [List.append_assoc]
    exact .tag hth (.array hah rfl hl)

theorem rewritable_new (L : LeafLaws E) (C : CodecLaws E) {h : Header E} (hw : HeaderWf h) {hmac : Hash}
    (hm : (E.encHash hmac).length < 2 ^ 63) {ch : E.Chain}
    (hc : (E.encChainOpt (some ch)).length < 2 ^ 63)
    (hsz : ∀ bs, Cbor.serialize h.contents = .ok bs → bs.length < 2 ^ 63) :
    ∃ v, new h hmac (some ch) = .ok v ∧ Rewritable c v ∧ v.header = h ∧ v.hmac = hmac ∧
      v.chain = some ch ∧ v.entries = ⟨none, []⟩ ∧ v.version = 101 := by
  obtain ⟨hb, h1, h2⟩ := header_roundtrip (c := c) hw []
  rw [List.append_nil] at h2
  have hbs := hsz hb h1
  obtain ⟨eb, e1, e2⟩ := roundtrip (c := c) none ⟨none, []⟩ [] (by simp) (by simp) (by simp) (.inl rfl)
  rw [List.append_nil] at e2
  refine ⟨{ contents := ⟨none, [E.encVersion 101, E.encBytes hb, E.encHash hmac, E.encChainOpt (some ch), eb]⟩,
            version := 101, header := h, hmac := hmac, chain := some ch, entries := ⟨none, []⟩ },
    ?_, ⟨⟨rfl, ?_, ⟨hb, ?_, h2⟩, ?_, ?_, eb, [], ?_, e2⟩, ?_, ?_⟩, rfl, rfl, rfl, rfl, rfl⟩
  · simp only [new, h1, e1, liftP_ok, Res.bind_ok, Res.pure_eq]
  · simp [getLeaf, L.version_dec 101 (.inr rfl)]
  · simp [getLeaf, C.bytes_dec _ hbs]
  · simp [getLeaf, L.hash_dec _ hm]
  · simp [getLeaf, L.chainOpt_dec _ hc]
  · simp [getRaw]
  · simp
  · intro i hi
    simp only [List.mem_cons, List.not_mem_nil, or_false] at hi
    rcases hi with rfl | rfl | rfl | rfl | rfl
    · exact L.version_item _ (.inr rfl)
    · exact C.bytes_item _ hbs
    · exact L.hash_item _ hm
    · exact L.chainOpt_item _ hc
    · exact isItem_array (tag := none) (l := []) (by simp) (by simp) e1 (by simp)

/-- After complete items a CBOR null stops the reader. -/
theorem loop_null (l : List Bytes) : ∀ (n : Nat) (acc : List Bytes) (x : Bytes),
    (∀ i ∈ l, IsItem i) → l.length < n →
    elemLoop c (l.flatten ++ 0xf6 :: x) ⟨[n], [], acc⟩ = .err (.unsupportedMajorType 7) := by
  induction l with
  | nil =>
    intro n acc x _ _
    rw [List.flatten_nil, List.nil_append, elemLoop_cons (by simp), elemStep_special (by decide)]
    rfl
  | cons i l ih =>
    intro n acc x hl hn
    have e1 : (i :: l).flatten ++ 0xf6 :: x = i ++ (l.flatten ++ 0xf6 :: x) := by simp
    rw [e1, loop_item (hl i (by simp)) _ _ _ _ _ (by omega)]
    simp only [List.length_cons] at hn
    have hn1 : n ≠ 1 := by omega
    simp only [afterItem, hn1, if_false, if_true, List.nil_append]
    exact ih _ _ _ (fun i h => hl i (by simp [h])) (by omega)

theorem deserialize_null {l : List Bytes} {n : Nat} (hl : ∀ i ∈ l, IsItem i) (hn : l.length < n)
    (hn' : n ≤ 65535) {more : List Bytes} (hlen : l.length + 1 + more.length = n) {bs : Bytes}
    (hs : Cbor.serialize ⟨none, l ++ [0xf6] :: more⟩ = .ok bs) :
    Cbor.deserialize c (some n) bs = .err (.unsupportedMajorType 7) := by
  obtain ⟨ah, hae, hah⟩ := isHead_encode (m := 4) (by omega) hn'
  have hlen' : (l ++ [0xf6] :: more).length = n := by simp; omega
  simp only [Cbor.serialize] at hs
  rw [show (pure [] : Res ParseErr Bytes) = .ok [] from rfl, Res.bind_ok, hlen', hae, Res.bind_ok] at hs
  simp only [Res.pure_eq, Res.ok.injEq, List.nil_append] at hs
  obtain ⟨b, lb, rfl, hb, hr⟩ := readLen_of_isHead hah
  subst hs
  have hf : (l ++ [0xf6] :: more).flatten = l.flatten ++ 0xf6 :: more.flatten := by simp
  rw [List.cons_append, hf]
  have ht : readTag b (lb ++ (l.flatten ++ 0xf6 :: more.flatten)) =
      .ok (none, b, lb ++ (l.flatten ++ 0xf6 :: more.flatten)) := by
    simp only [readTag, hb]
  simp only [Cbor.deserialize, ht, readArray, hb, ne_eq, not_true, if_false]
  rw [readLen_minor, hr]
  simp only [readElements, loop_null l n [] more.flatten hl hn, not_true, if_false]

/-- Two expected sizes cannot both succeed on the same bytes. -/
theorem size_unique {n m : Nat} {inp r1 r2 : Bytes} {a1 a2 : ParsedArray}
    (h1 : Cbor.deserialize c (some n) inp = .ok (a1, r1))
    (h2 : Cbor.deserialize c (some m) inp = .ok (a2, r2)) : n = m := by
  unfold Cbor.deserialize at h1 h2
  split at h1
  · cases h1
  · simp only at h2
    split at h1
    · rename_i tag b' inp' ht
      rw [ht] at h2
      simp only at h2
      unfold readArray at h1 h2
      split at h1
      · cases h1
      · rename_i hb
        rw [if_neg hb] at h2
        split at h1
        · rename_i len lb r hl
          rw [hl] at h2
          simp only at h1 h2
          split at h1
          · cases h1
          · split at h2
            · cases h2
            · rename_i e1 e2
              have e1 := Classical.not_not.1 e1; have e2 := Classical.not_not.1 e2
              omega
        · cases h1
        · cases h1
    · cases h1
    · cases h1

end Verif.Voucher

namespace Verif.Voucher
open Verif Verif.Cbor Verif.Cbor.Spec

variable {E : Env} {c : Bool}

theorem SignChain.det {info : Bytes} {key : E.Pub} {prev : Bytes} {raws : List Bytes}
    {a b : List (Payload E)} (ha : SignChain E c info key prev raws a)
    (hb : SignChain E c info key prev raws b) : a = b := by
  induction ha generalizing b with
  | nil => cases hb; rfl
  | cons a1 a2 a3 a4 a5 _ ih =>
    cases hb with
    | cons b1 b2 b3 b4 b5 b6 =>
      rw [a1] at b1; cases b1
      rw [a3] at b3; cases b3
      rw [ih b6]

/-- The last entry of a chain, and the chain before it. -/
theorem SignChain.split_last {info : Bytes} {key : E.Pub} {prev : Bytes} {init : List Bytes} {x : Bytes}
    {ps : List (Payload E)} (h : SignChain E c info key prev (init ++ [x]) ps) :
    ∃ qs s p, SignChain E c info key prev init qs ∧ parseSign1 E c x = .ok s ∧
      E.decPayload s.payload = some p ∧ Commits E p.hashPrev ((init.getLast?).getD prev) := by
  induction init generalizing key prev ps with
  | nil =>
    cases h with
    | cons a1 a2 a3 a4 a5 a6 => exact ⟨[], _, _, .nil, a1, a3, a4⟩
  | cons y init ih =>
    cases h with
    | cons a1 a2 a3 a4 a5 a6 =>
      obtain ⟨qs, s, p, b1, b2, b3, b4⟩ := ih a6
      refine ⟨_ :: qs, s, p, .cons a1 a2 a3 a4 a5 b1, b2, b3, ?_⟩
      cases init with
      | nil => exact b4
      | cons z init =>
        have e : ∀ d, ((y :: z :: init).getLast?).getD d = ((z :: init).getLast?).getD d := by
          intro d; simp [List.getLast?_cons_cons]
        have e' : ∀ d d', ((z :: init).getLast?).getD d = ((z :: init).getLast?).getD d' := by
          intro d d'; simp [List.getLast?_cons]
        rw [e, e' prev y]; exact b4

theorem header_parse {inp : Bytes} {h : Header E} (hd : Header.deserialize E c inp = .ok h) :
    ∃ a r, Cbor.deserialize c (some 6) inp = .ok (a, r) := by
  unfold Header.deserialize at hd
  obtain ⟨⟨a, r⟩, h1, _⟩ := Res.bind_eq_ok.1 hd
  exact ⟨a, r, liftP_eq_ok.1 h1⟩

theorem header_mono {inp : Bytes} {h : Header E} (hd : Header.deserialize E c inp = .ok h) (q : Bytes) :
    Header.deserialize E c (inp ++ q) = .ok h := by
  unfold Header.deserialize at hd ⊢
  obtain ⟨⟨a, r⟩, h1, hd⟩ := Res.bind_eq_ok.1 hd
  rw [deserialize_mono (liftP_eq_ok.1 h1), liftP_ok, Res.bind_ok]
  exact hd

/-- After a successful extend the entries element is the writing of the entries. -/
theorem extend_entries_written {v v' : Voucher E} {k : E.Priv} {x : Option E.Extra} {n : E.Pub}
    (h : extend c v k x n = (v', .ok ())) (hl : 4 < v.contents.contents.length) :
    ∃ eb, Cbor.serialize v'.entries = .ok eb ∧ v'.contents.contents[4]? = some eb := by
  unfold extend at h
  split at h
  · cases h
  · cases h
  · simp only at h
    split at h
    · rename_i eb he
      cases h
      exact ⟨eb, he, by simp only; rw [List.getElem?_set_self hl]⟩
    · cases h
    · cases h

theorem rewritable_extend {v v' : Voucher E} {k : E.Priv} {x : Option E.Extra} {n : E.Pub}
    (w : Rewritable c v) (h : extend c v k x n = (v', .ok ())) (w' : Wf c v')
    (htag : v'.entries.tag = none) (hit : ∀ i ∈ v'.entries.contents, IsItem i)
    (hn : v'.entries.contents.length ≤ 65535)
    (hother : ∀ i, i ≠ 4 → v'.contents.contents[i]? = v.contents.contents[i]?)
    (hct : v'.contents.tag = v.contents.tag) : Rewritable c v' := by
  refine ⟨w', by rw [hct]; exact w.tag, ?_⟩
  obtain ⟨eb, e1, e2⟩ := extend_entries_written h (by rw [w.wf.len]; omega)
  have hentries : v'.entries = ⟨none, v'.entries.contents⟩ := by rw [← htag]
  rw [hentries] at e1
  intro i hi
  obtain ⟨j, hj, rfl⟩ := List.mem_iff_getElem.1 hi
  by_cases hj4 : j = 4
  · subst hj4
    rw [List.getElem?_eq_getElem hj] at e2
    rw [Option.some.inj e2]
    exact isItem_array (tag := none) (by simp) hit e1 hn
  · have h0 := hother j hj4
    rw [List.getElem?_eq_getElem hj] at h0
    exact w.items _ (List.mem_of_getElem? h0.symm)

end Verif.Voucher
