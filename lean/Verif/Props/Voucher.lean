import Verif.Spec.Toy
/-!
Properties C06–C12: ownership vouchers (`data-formats/src/ownershipvoucher.rs`).

`E` holds the external cryptography and codecs, `c` is the build profile of the CBOR reader.
`verifyAll c v` is "iterate the entries, stop at the first error", as all callers do.
-/
namespace Verif.Voucher
open Verif Verif.Cbor Verif.Cbor.Spec

variable {E : Env} {c : Bool}

/-! ### A concrete voucher for the examples -/

/-- Header of the example voucher: manufacturer key 7. -/
def exHeader : Header Toy.env :=
  Header.new Toy.env 101 (List.replicate 16 0xaa) () "FDO device 1" (7 : UInt8)
    (some ⟨.sha256, List.replicate 32 1⟩)

theorem exHeader_wf : HeaderWf exHeader :=
  headerWf_new Toy.leafLaws (.inr rfl) rfl (by decide) ⟨by decide, by decide, by decide, by decide⟩

/-- The example voucher exists: header as above, HMAC type HMAC-SHA256, device certificate chain. -/
theorem exVoucher (c : Bool) : ∃ v : Voucher Toy.env,
    new exHeader ⟨.hmacSha256, List.replicate 32 2⟩ (some (9 : UInt8)) = .ok v ∧ Rewritable c v ∧
      v.header = exHeader ∧ v.hmac = ⟨.hmacSha256, List.replicate 32 2⟩ ∧ v.chain = some 9 ∧
      v.entries = ⟨none, []⟩ ∧ v.version = 101 := by
  refine rewritable_new Toy.leafLaws Toy.codecLaws exHeader_wf (by decide) (by decide) ?_
  intro bs h
  have h2 : Cbor.serialize exHeader.contents = .ok bs := h
  unfold Cbor.serialize at h2
  have h3 : bs = [0x86] ++ exHeader.contents.contents.flatten := by
    have : (exHeader.contents.tag) = none := rfl
    simp only [this] at h2
    injection h2 with h2
    exact h2.symm
  rw [h3]
  simp only [exHeader, Header.new]
  decide +kernel

/-! ### C06 -/

/-- The current owner can always create the next entry; it continues the verified chain. -/
theorem newEntry_owner (L : CodecLaws E) {v : Voucher E} (w : Wf c v) {ps : List (Payload E)}
    (hv : verifyAll c v = .ok ps) {k : E.Priv} (hk : GoodKey E k)
    (hown : E.keyMatches (lastOwner v.header.mfgKey ps) k = true) {extra : Option E.Extra}
    (hx : extra.isSome → 101 ≤ v.version) {next : E.Pub} (hsmall : SmallPayload E extra next) :
    ∃ hdr raw p, hdrBytes v = .ok hdr ∧ newEntry c v k extra next = .ok raw ∧ IsItem raw ∧
      p.publicKey = next ∧ p.extra = extra ∧
      SignChain E c (v.header.guid ++ v.header.deviceInfo.toUTF8.toList) v.header.mfgKey hdr
        (v.entries.contents ++ [raw]) (ps ++ [p]) := by
  obtain ⟨hdr, hhdr⟩ := w.hdr
  have hinfo := w.info
  have hchain := (verifyAll_iff hinfo hhdr ps).1 hv
  have hplain := hashType_plain v
  -- the digest of what precedes, and the owner
  have hcur : ∃ prev, prev = (v.entries.contents.getLast?).getD hdr ∧
      currentOwner c v = .ok (⟨hashType v, E.digest (hashType v) prev⟩, lastOwner v.header.mfgKey ps) := by
    unfold currentOwner
    cases hl : v.entries.contents.getLast? with
    | none =>
      have he : v.entries.contents = [] := List.getLast?_eq_none_iff.1 hl
      rw [he] at hchain
      cases hchain
      refine ⟨hdr, rfl, ?_⟩
      simp only
      rw [hdrHash_ok.2 ⟨hdr, hhdr, hplain, rfl⟩]
      rfl
    | some raw =>
      obtain ⟨s, p, h1, h2, h3⟩ := hchain.last hl
      refine ⟨raw, rfl, ?_⟩
      simp only
      rw [hashData_ok.2 ⟨hplain, rfl⟩, Res.bind_ok, h1, Res.bind_ok, h2, ofOpt_some, Res.bind_ok, h3]
      rfl
  obtain ⟨prev, hprev, hcur⟩ := hcur
  let info := v.header.guid ++ v.header.deviceInfo.toUTF8.toList
  let p : Payload E := ⟨⟨hashType v, E.digest (hashType v) prev⟩,
    ⟨hashType v, E.digest (hashType v) info⟩, extra, next⟩
  have hsz : (E.encPayload p).length < 2 ^ 63 := hsmall _ _ _ _
  obtain ⟨raw, s, r1, r2, r3, r4, r5⟩ := signRaw_ok (c := c) L hk hsz
  have hnew : newEntry c v k extra next = .ok raw := by
    unfold newEntry
    rw [if_neg (by rintro ⟨h1, h2⟩; have := hx h1; omega), infoHash_ok.2 ⟨info, hinfo, hplain, rfl⟩,
      Res.bind_ok, hcur, Res.bind_ok]
    simp only [hown, Bool.not_true, Bool.false_eq_true, if_false]
    exact r1
  refine ⟨hdr, raw, p, hhdr, hnew, r4, rfl, rfl, ?_⟩
  refine hchain.append r2 (r5 _ hown) (by rw [r3]; exact L.payload_dec p hsz) ?_ ⟨hplain, rfl⟩
  rw [← hprev]
  exact ⟨hplain, rfl⟩


/-- **C06** (single step). A well-formed voucher whose chain verifies, extended with a working key
of its current owner: the extend succeeds, adds exactly one entry, leaves header, HMAC, certificate
chain and the other contents unchanged, the complete chain verifies again and its last verified
entry names the new owner. Missing with respect to the full property: at 65535 entries the extend
aborts (`C06_extend_violated`), hence the bound on the number of entries. -/
theorem C06_extend_partial (L : CodecLaws E) (v : Voucher E) (w : Wf c v)
    (htag : v.entries.tag = none) (hn : v.entries.contents.length < 65535)
    (hitems : ∀ i ∈ v.entries.contents, IsItem i)
    (ps : List (Payload E)) (hv : verifyAll c v = .ok ps)
    (k : E.Priv) (hk : GoodKey E k) (hown : E.keyMatches (lastOwner v.header.mfgKey ps) k = true)
    (extra : Option E.Extra) (hx : extra.isSome → 101 ≤ v.version)
    (next : E.Pub) (hsmall : SmallPayload E extra next) :
    ∃ v' raw p, extend c v k extra next = (v', .ok ()) ∧
      verifyAll c v' = .ok (ps ++ [p]) ∧ p.publicKey = next ∧ p.extra = extra ∧
      lastOwner v'.header.mfgKey (ps ++ [p]) = next ∧
      v'.entries.contents = v.entries.contents ++ [raw] ∧ IsItem raw ∧ v'.entries.tag = none ∧
      v'.header = v.header ∧ v'.hmac = v.hmac ∧ v'.chain = v.chain ∧ v'.version = v.version ∧
      (∀ i, i ≠ 4 → v'.contents.contents[i]? = v.contents.contents[i]?) ∧
      v'.contents.tag = v.contents.tag ∧ Wf c v' := by
  obtain ⟨hdr, raw, p, hhdr, hnew, r4, hp1, hp2, hsc⟩ := newEntry_owner L w hv hk hown hx hsmall
  have hinfo := w.info
  obtain ⟨eb, e1, e2⟩ := roundtrip (c := c) none ⟨none, v.entries.contents ++ [raw]⟩ []
    (by
      intro i hi
      rcases List.mem_append.1 hi with hi | hi
      · exact hitems i hi
      · simp only [List.mem_singleton] at hi; subst hi; exact r4)
    (by simp; omega) (by simp) (.inl rfl)
  rw [List.append_nil] at e2
  let v' : Voucher E := { v with
    entries := ⟨none, v.entries.contents ++ [raw]⟩
    contents := { v.contents with contents := v.contents.contents.set 4 eb } }
  have hext : extend c v k extra next = (v', .ok ()) := by
    unfold extend
    rw [hnew]
    simp only [htag, e1]
    rfl
  have hother : ∀ i, i ≠ 4 → v'.contents.contents[i]? = v.contents.contents[i]? := by
    intro i hi
    simp only [v']
    exact List.getElem?_set_ne (Ne.symm hi)
  have hhdr' : hdrBytes v' = .ok hdr := by
    unfold hdrBytes getLeaf getRaw at hhdr ⊢
    rw [hother 1 (by omega), hother 2 (by omega)]
    exact hhdr
  refine ⟨v', raw, p, hext, (verifyAll_iff (v := v') hinfo hhdr' _).2 hsc, hp1, hp2, ?_, rfl, r4,
    rfl, rfl, rfl, rfl, rfl, hother, rfl, ?_⟩
  · rw [lastOwner_append, hp1]
  obtain ⟨hl5, w1, ⟨hb, w2, w3⟩, w4, w5, er, r, w6, w7⟩ := w
  refine ⟨by simp [v', hl5], ?_, ⟨hb, ?_, w3⟩, ?_, ?_, eb, [], ?_, e2⟩
  · unfold getLeaf at w1 ⊢; rw [hother 0 (by omega)]; exact w1
  · unfold getLeaf at w2 ⊢; rw [hother 1 (by omega)]; exact w2
  · unfold getLeaf at w4 ⊢; rw [hother 2 (by omega)]; exact w4
  · unfold getLeaf at w5 ⊢; rw [hother 3 (by omega)]; exact w5
  · unfold getRaw
    have : v'.contents.contents[4]? = some eb := by
      simp only [v']
      rw [List.getElem?_set_self (by omega)]
    rw [this]

/-- **C06** (any sequence). Any sequence of extends, each signed by the owner named in the previous
one, succeeds; the complete chain verifies and names exactly those owners in order, so the verified
last owner is the last named one. (Up to 65535 entries, see `C06_extend_violated`.) -/
theorem C06_extend_sequence_partial (L : CodecLaws E) (steps : List (Step E)) :
    ∀ (v : Voucher E) (ps : List (Payload E)), Wf c v → v.entries.tag = none →
      v.entries.contents.length + steps.length ≤ 65535 →
      (∀ i ∈ v.entries.contents, IsItem i) → verifyAll c v = .ok ps →
      (∀ st ∈ steps, GoodKey E st.1 ∧ (st.2.1.isSome → 101 ≤ v.version) ∧ SmallPayload E st.2.1 st.2.2) →
      OwnerSteps (lastOwner v.header.mfgKey ps) steps →
      ∃ v' ps', extendMany c v steps = (v', .ok ()) ∧ verifyAll c v' = .ok (ps ++ ps') ∧
        ps'.map (·.publicKey) = steps.map (·.2.2) ∧ ps'.map (·.extra) = steps.map (·.2.1) ∧
        v'.entries.contents.length = v.entries.contents.length + steps.length ∧
        v.entries.contents <+: v'.entries.contents ∧
        v'.header = v.header ∧ v'.hmac = v.hmac ∧ v'.chain = v.chain ∧ Wf c v' ∧
        v'.entries.tag = none ∧ (∀ i ∈ v'.entries.contents, IsItem i) ∧ v'.version = v.version := by
  induction steps with
  | nil =>
    intro v ps w ht hn hi hv _ _
    exact ⟨v, [], rfl, by simpa using hv, rfl, rfl, by simp, List.prefix_refl _, rfl, rfl, rfl, w, ht, hi, rfl⟩
  | cons st steps ih =>
    intro v ps w ht hn hi hv hst ho
    obtain ⟨k, x, n⟩ := st
    obtain ⟨g1, g2, g3⟩ := hst (k, x, n) (by simp)
    simp only [List.length_cons] at hn
    obtain ⟨v1, raw, p, a1, a2, a3, a4, a5, a6, a7, a8, a9, a10, a11, a12, a13, a14, a15⟩ :=
      C06_extend_partial L v w ht (by omega) hi ps hv k g1 ho.1 x g2 n g3
    obtain ⟨v', ps', b1, b2, b3, b4, b5, b6, b7, b8, b9, b10, b11, b12, b13⟩ :=
      ih v1 (ps ++ [p]) a15 a8 (by rw [a6]; simp; omega)
        (by
          intro i hi'
          rw [a6] at hi'
          rcases List.mem_append.1 hi' with hi' | hi'
          · exact hi i hi'
          · simp only [List.mem_singleton] at hi'; subst hi'; exact a7)
        a2 (by
          intro st h
          rw [a12]
          exact hst st (by simp [h]))
        (by rw [a5]; exact ho.2)
    refine ⟨v', p :: ps', ?_, by simpa using b2, by simp [b3, a3], by simp [b4, a4], ?_, ?_, by rw [b7, a9],
      by rw [b8, a10], by rw [b9, a11], b10, b11, b12, by rw [b13, a12]⟩
    · simp only [extendMany, a1, b1]
    · rw [b5, a6]; simp; omega
    · rw [a6] at b6
      exact (List.prefix_append _ _).trans b6

/-- Three owners (7 → 11 → 12 → 13) in the example environment. -/
example (c : Bool) : ∃ (v v' : Voucher Toy.env) (ps : List (Payload Toy.env)),
    new exHeader ⟨.hmacSha256, List.replicate 32 2⟩ (some (9 : UInt8)) = .ok v ∧
    extendMany c v [((7 : UInt8), none, (11 : UInt8)), ((11 : UInt8), none, (12 : UInt8)),
      ((12 : UInt8), none, (13 : UInt8))] = (v', .ok ()) ∧
    verifyAll c v' = .ok ps ∧ ps.map (·.publicKey) = [(11 : UInt8), (12 : UInt8), (13 : UInt8)] := by
  obtain ⟨v, h1, h2, h3, h4, h5, h6, h7⟩ := exVoucher c
  obtain ⟨v', ps', b1, b2, b3, _⟩ := C06_extend_sequence_partial (c := c) Toy.codecLaws
    [((7 : UInt8), none, (11 : UInt8)), ((11 : UInt8), none, (12 : UInt8)),
      ((12 : UInt8), none, (13 : UInt8))] v [] h2.wf (by rw [h6]) (by rw [h6]; decide)
    (by rw [h6]; simp) (by unfold verifyAll; rw [h6]; rfl)
    (by
      intro st hst
      refine ⟨Toy.goodKey _, ?_, ?_⟩
      · intro _; rw [h7]; omega
      · simp only [List.mem_cons, List.not_mem_nil, or_false] at hst
        rcases hst with rfl | rfl | rfl <;> exact Toy.smallPayload _)
    (by
      rw [h3]
      exact ⟨rfl, rfl, rfl, trivial⟩)
  exact ⟨v, v', ps', h1, b1, by simpa using b2, b3⟩

theorem exSteps_owner (n : Nat) : OwnerSteps (E := Toy.env) (7 : UInt8)
    (List.replicate n ((7 : UInt8), (none : Option Bytes), (7 : UInt8))) := by
  induction n with
  | zero => trivial
  | succ n ih => exact ⟨rfl, ih⟩

/-- The unrestricted C06 is false: there is a voucher with 65535 entries, all verified, whose extend
with the current owner's (working) key aborts the process. -/
theorem C06_extend_violated (c : Bool) :
    ∃ (E : Env) (v : Voucher E) (ps : List (Payload E)) (k : E.Priv) (next : E.Pub),
      CodecLaws E ∧ Wf c v ∧ verifyAll c v = .ok ps ∧ GoodKey E k ∧
      E.keyMatches (lastOwner v.header.mfgKey ps) k = true ∧ SmallPayload E none next ∧
      (extend c v k none next).2 = .panic := by
  obtain ⟨v0, h1, h2, h3, h4, h5, h6, h7⟩ := exVoucher c
  obtain ⟨v, ps, b1, b2, b3, b4, b5, b6, b7, b8, b9, b10, b11, b12, b13⟩ :=
    C06_extend_sequence_partial (c := c) Toy.codecLaws
      (List.replicate 65535 ((7 : UInt8), (none : Option Bytes), (7 : UInt8))) v0 [] h2.wf (by rw [h6])
      (by rw [h6, List.length_replicate]; simp) (by rw [h6]; simp) (by unfold verifyAll; rw [h6]; rfl)
      (by
        intro st hst
        rw [List.eq_of_mem_replicate hst]
        exact ⟨Toy.goodKey _, by simp, Toy.smallPayload _⟩)
      (by rw [h3]; exact exSteps_owner _)
  rw [List.nil_append] at b2
  have hown : lastOwner v.header.mfgKey ps = (7 : UInt8) := by
    rw [List.map_replicate] at b3
    have hne : ps ≠ [] := by
      rintro rfl
      have := congrArg List.length b3
      rw [List.length_replicate] at this
      cases this
    have hsplit := List.dropLast_concat_getLast hne
    rw [← hsplit, lastOwner_append]
    have : (ps.getLast hne).publicKey ∈ ps.map (·.publicKey) :=
      List.mem_map_of_mem (List.getLast_mem hne)
    rw [b3] at this
    exact List.eq_of_mem_replicate this
  refine ⟨Toy.env, v, ps, (7 : UInt8), (7 : UInt8), Toy.codecLaws, b10, b2, Toy.goodKey _, ?_,
    Toy.smallPayload _, ?_⟩
  · rw [hown]; rfl
  · have hlen : v.entries.contents.length = 65535 := by
      rw [b5, h6, List.length_replicate]; rfl
    -- the new entry is created, writing 65536 entries aborts
    obtain ⟨hdr, raw, p, hhdr, hnew, _⟩ := newEntry_owner (c := c) (extra := none) Toy.codecLaws b10 b2
      (Toy.goodKey 7) (by rw [hown]; rfl) (by simp) (Toy.smallPayload 7)
    have hser : Cbor.serialize ⟨none, v.entries.contents ++ [raw]⟩ = .panic := by
      simp only [Cbor.serialize]
      have : encodeItemStart 4 (v.entries.contents ++ [raw]).length = .panic := by
        unfold encodeItemStart
        have : (v.entries.contents ++ [raw]).length = 65536 := by simp [hlen]
        rw [if_neg (by omega), if_neg (by omega), if_neg (by omega)]
      rw [this]
      rfl
    unfold extend
    rw [hnew]
    simp only [b11, hser]

/-! ### C07 -/

/-- Who may extend: the manufacturer of a voucher without entries, otherwise the key named in the
(decodable) last entry. -/
def MayExtend (c : Bool) (v : Voucher E) (o : E.Pub) : Prop :=
  (v.entries.contents = [] ∧ o = v.header.mfgKey) ∨
  ∃ raw s p, v.entries.contents.getLast? = some raw ∧ parseSign1 E c raw = .ok s ∧
    E.decPayload s.payload = some p ∧ o = p.publicKey

/-- **C07**: an extend only succeeds with a private key matching the current owner; otherwise it
fails and leaves the voucher exactly as it was. -/
theorem C07_only_owner_extends (v : Voucher E) (k : E.Priv) (extra : Option E.Extra) (next : E.Pub)
    (hno : ∀ o, MayExtend c v o → E.keyMatches o k = false) :
    (extend c v k extra next).1 = v ∧ (extend c v k extra next).2 ≠ .ok () := by
  have hnew : ∀ raw, newEntry c v k extra next ≠ .ok raw := by
    intro raw h
    unfold newEntry at h
    split at h
    · cases h
    · obtain ⟨hi, _, h⟩ := Res.bind_eq_ok.1 h
      obtain ⟨⟨last, o⟩, h1, h⟩ := Res.bind_eq_ok.1 h
      have ho : MayExtend c v o := by
        unfold currentOwner at h1
        split at h1
        · rename_i hl
          obtain ⟨_, _, h1⟩ := Res.bind_eq_ok.1 h1
          cases h1
          exact .inl ⟨List.getLast?_eq_none_iff.1 hl, rfl⟩
        · rename_i raw hl
          obtain ⟨_, _, h1⟩ := Res.bind_eq_ok.1 h1
          obtain ⟨s, h2, h1⟩ := Res.bind_eq_ok.1 h1
          obtain ⟨p, h3, h1⟩ := Res.bind_eq_ok.1 h1
          cases h1
          exact .inr ⟨raw, s, p, hl, h2, ofOpt_eq_ok.1 h3, rfl⟩
      simp only [hno o ho, Bool.not_false, if_true] at h
      cases h
  unfold extend
  split
  · exact ⟨rfl, by simp⟩
  · exact ⟨rfl, by simp⟩
  · rename_i raw h
    exact absurd h (hnew raw)

/-- **C07**, as the caller sees it: for a well-formed voucher whose owner is known and a different
key, the error is `NonOwnerKey` (unless extra data is refused first for a version 1.0 voucher). -/
theorem C07_non_owner_error (v : Voucher E) (w : Wf c v) (o : E.Pub) (ho : MayExtend c v o) (k : E.Priv)
    (hk : E.keyMatches o k = false) (extra : Option E.Extra) (hx : extra.isSome → 101 ≤ v.version)
    (next : E.Pub) : extend c v k extra next = (v, .err .nonOwnerKey) := by
  obtain ⟨hdr, hhdr⟩ := w.hdr
  have hinfo := w.info
  have hplain := hashType_plain v
  have hcur : ∃ h, currentOwner c v = .ok (h, o) := by
    unfold currentOwner
    rcases ho with ⟨h1, rfl⟩ | ⟨raw, s, p, h1, h2, h3, rfl⟩
    · rw [h1]
      simp only [List.getLast?_nil]
      rw [hdrHash_ok.2 ⟨hdr, hhdr, hplain, rfl⟩]
      exact ⟨_, rfl⟩
    · rw [h1]
      simp only
      rw [hashData_ok.2 ⟨hplain, rfl⟩, Res.bind_ok, h2, Res.bind_ok, h3]
      exact ⟨_, rfl⟩
  obtain ⟨h, hcur⟩ := hcur
  have : newEntry c v k extra next = .err .nonOwnerKey := by
    unfold newEntry
    rw [if_neg (by rintro ⟨h1, h2⟩; have := hx h1; omega), infoHash_ok.2 ⟨_, hinfo, hplain, rfl⟩,
      Res.bind_ok, hcur, Res.bind_ok]
    simp only [hk, Bool.not_false, if_true]
  unfold extend
  rw [this]

/-- The example voucher (owner: key 7) cannot be extended with key 8. -/
example (c : Bool) : ∃ v : Voucher Toy.env, Wf c v ∧ MayExtend c v (7 : UInt8) ∧
    extend c v (8 : UInt8) none (9 : UInt8) = (v, .err .nonOwnerKey) := by
  obtain ⟨v, h1, h2, h3, h4, h5, h6, h7⟩ := exVoucher c
  have ho : MayExtend c v (7 : UInt8) := .inl ⟨by rw [h6], by rw [h3]; rfl⟩
  exact ⟨v, h2.wf, ho, C07_non_owner_error v h2.wf _ ho _ rfl _ (by simp) _⟩

/-! ### C09 and C10 -/

theorem polls_invariant {v : Voucher E} {info : Bytes} (hi : v.header.infoBytes E = .ok info) :
    ∀ (n i : Nat) (key : E.Pub) (prev : Bytes),
    prevBytes v i = .ok prev →
    ∃ (ps : List (Payload E)) (tail : List (Poll E)),
      polls c v n ⟨i, false, key⟩ = ps.map .item ++ tail ∧
      SignChain E c info key prev ((v.entries.contents.drop i).take ps.length) ps ∧
      ((tail = [] ∧ ps.length = n) ∨
       (tail = [.panic] ∧ i + ps.length < v.entries.contents.length) ∨
       (∃ e m, tail = .error e :: List.replicate m .done ∧ i + ps.length < v.entries.contents.length ∧
          ps.length + 1 + m = n ∧
          ∀ p, ¬ SignChain E c info key prev ((v.entries.contents.drop i).take (ps.length + 1)) (ps ++ [p])) ∨
       (∃ m, tail = List.replicate (m + 1) .done ∧ ps.length + (m + 1) = n ∧
          v.entries.contents.length ≤ i + ps.length)) := by
  have hdone : ∀ (n : Nat) (st : IterSt E), (st.errored = true ∨ v.entries.contents[st.index]? = none) →
      polls c v n st = List.replicate n .done := by
    intro n
    induction n with
    | zero => intros; rfl
    | succ n ih =>
      intro st h
      have hn : next c v st = (.done, st) := by
        unfold next
        rcases h with h | h
        · rw [if_pos h]
        · split
          · rfl
          · rw [h]
      simp only [polls, hn, ih st h, List.replicate_succ]
  intro n
  induction n with
  | zero =>
    intro i key prev _
    exact ⟨[], [], rfl, .nil, .inl ⟨rfl, rfl⟩⟩
  | succ n ih =>
    intro i key prev hp
    cases hr : v.entries.contents[i]? with
    | none =>
      refine ⟨[], List.replicate (n + 1) .done, ?_, .nil, .inr (.inr (.inr ⟨n, rfl, by simp, ?_⟩))⟩
      · rw [hdone (n + 1) _ (.inr hr)]; rfl
      · simpa using hr
    | some raw =>
      have hlt : i < v.entries.contents.length := by
        rcases Nat.lt_or_ge i v.entries.contents.length with h | h
        · exact h
        · rw [List.getElem?_eq_none h] at hr; cases hr
      have hdrop : v.entries.contents.drop i = raw :: v.entries.contents.drop (i + 1) := by
        rw [List.drop_eq_getElem_cons hlt]
        rw [List.getElem?_eq_getElem hlt] at hr
        cases hr; rfl
      cases hc : checkEntry c v key i raw with
      | panic =>
        refine ⟨[], [.panic], ?_, .nil, .inr (.inl ⟨rfl, by simpa using hlt⟩)⟩
        simp only [polls, next, hr, hc]
        rfl
      | err e =>
        refine ⟨[], .error e :: List.replicate n .done, ?_, .nil, .inr (.inr (.inl ⟨e, n, rfl, by simpa using hlt,
          by simp; omega, ?_⟩))⟩
        · simp only [polls, next, hr, hc]
          simp only [Bool.false_eq_true, if_false]
          rw [hdone n _ (.inl rfl)]
          rfl
        · intro p hsc
          simp only [List.length_nil, Nat.zero_add, hdrop, List.take_succ_cons, List.take_zero,
            List.nil_append] at hsc
          cases hsc with
          | cons a1 a2 a3 a4 a5 a6 =>
            rw [checkEntry_ok.2 ⟨_, _, _, a1, a2, a3, hp, a4, hi, a5⟩] at hc
            cases hc
      | ok p =>
        obtain ⟨s, prev', info', e1, e2, e3, e4, e5, e6, e7⟩ := checkEntry_ok.1 hc
        rw [hp] at e4; cases e4
        rw [hi] at e6; cases e6
        obtain ⟨ps, tail, t1, t2, t3⟩ := ih (i + 1) p.publicKey raw (prevBytes_succ hr)
        refine ⟨p :: ps, tail, ?_, ?_, ?_⟩
        · simp only [polls, next, hr, hc]
          simp only [Bool.false_eq_true, if_false, List.map_cons, List.cons_append, List.cons.injEq, true_and]
          exact t1
        · rw [hdrop]
          exact .cons e1 e2 e3 e5 e7 t2
        · rcases t3 with ⟨h1, h2⟩ | ⟨h1, h2⟩ | ⟨e, m, h1, h2, h3, h4⟩ | ⟨m, h1, h2, h3⟩
          · exact .inl ⟨h1, by simp [h2]⟩
          · exact .inr (.inl ⟨h1, by simp; omega⟩)
          · refine .inr (.inr (.inl ⟨e, m, h1, by simp; omega, by simp; omega, ?_⟩))
            intro q hsc
            rw [hdrop] at hsc
            simp only [List.length_cons, List.take_succ_cons, List.cons_append] at hsc
            cases hsc with
            | cons a1 a2 a3 a4 a5 a6 => exact h4 q a6
          · exact .inr (.inr (.inr ⟨m, h1, by simp; omega, by simp; omega⟩))

/-- The iterator delivers every valid chain. -/
theorem polls_run {v : Voucher E} {info : Bytes} (hi : v.header.infoBytes E = .ok info) :
    ∀ (raws more : List Bytes) (i : Nat) (key : E.Pub) (prev : Bytes) (a : List (Payload E)) (m : Nat),
    SignChain E c info key prev raws a →
    prevBytes v i = .ok prev → v.entries.contents.drop i = raws ++ more →
    polls c v (raws.length + m) ⟨i, false, key⟩ =
      a.map .item ++ polls c v m ⟨i + raws.length, false, lastOwner key a⟩ := by
  intro raws more
  induction raws with
  | nil => intro i key prev a m hs _ _; cases hs; simp [lastOwner]
  | cons raw raws ih =>
    intro i key prev a m hs hp hd
    cases hs with
    | cons a1 a2 a3 a4 a5 a6 =>
      have hr : v.entries.contents[i]? = some raw := by
        have := congrArg (·[0]?) hd
        simpa using this
      have hd' : v.entries.contents.drop (i + 1) = raws ++ more := by
        rw [← List.drop_drop, hd]; rfl
      have hc := checkEntry_ok.2 ⟨_, _, _, a1, a2, a3, hp, a4, hi, a5⟩
      rw [List.length_cons, show raws.length + 1 + m = (raws.length + m) + 1 by omega]
      simp only [polls, next, hr, hc]
      simp only [Bool.false_eq_true, if_false]
      rw [ih (i + 1) _ _ _ m a6 (prevBytes_succ hr) hd']
      simp only [List.map_cons, List.cons_append, lastOwner]
      rw [show i + 1 + raws.length = i + (raws.length + 1) by omega]

/-- **C09**: if the first `n` polls of a voucher's entry iterator yield the payloads `ps` without
error, then the first entry carries a valid signature of the manufacturer key, each later entry a
valid signature of the key named by its predecessor, and every entry commits to the header info and
to the bytes of the previous entry (header and HMAC for the first). -/
theorem C09_signature_chain (v : Voucher E) (w : Wf c v) (n : Nat) (ps : List (Payload E))
    (h : polls c v n (iterStart v) = ps.map .item) :
    ∃ hdr, hdrBytes v = .ok hdr ∧
      SignChain E c (v.header.guid ++ v.header.deviceInfo.toUTF8.toList) v.header.mfgKey hdr
        (v.entries.contents.take n) ps := by
  obtain ⟨hdr, hhdr⟩ := w.hdr
  refine ⟨hdr, hhdr, ?_⟩
  obtain ⟨ps', tail, h1, h2, h3⟩ := polls_invariant (c := c) w.info n 0 v.header.mfgKey hdr
    (by simp [prevBytes, hhdr])
  have hst : iterStart v = ⟨0, false, v.header.mfgKey⟩ := rfl
  rw [hst, h1] at h
  have hinj : ∀ (a b : List (Payload E)), a.map Poll.item = b.map Poll.item → a = b := by
    intro a
    induction a with
    | nil => intro b h; cases b with
      | nil => rfl
      | cons => cases h
    | cons x a ih => intro b h; cases b with
      | nil => cases h
      | cons y b =>
        simp only [List.map_cons, List.cons.injEq, Poll.item.injEq] at h
        rw [h.1, ih b h.2]
  have hpre : ∀ (a b : List (Payload E)) t, a.map Poll.item ++ t = b.map Poll.item →
      ∃ d, b = a ++ d ∧ t = d.map Poll.item := by
    intro a
    induction a with
    | nil => intro b t h; exact ⟨b, rfl, h⟩
    | cons x a ih =>
      intro b t h
      cases b with
      | nil => cases h
      | cons y b =>
        simp only [List.map_cons, List.cons_append, List.cons.injEq, Poll.item.injEq] at h
        obtain ⟨d, e1, e2⟩ := ih b t h.2
        exact ⟨d, by rw [h.1, e1]; rfl, e2⟩
  obtain ⟨d, rfl, hd⟩ := hpre _ _ _ h
  have hd' : d = [] := by
    cases d with
    | nil => rfl
    | cons x d =>
      exfalso
      rcases h3 with ⟨h1, _⟩ | ⟨h1, _⟩ | ⟨e, m, h1, _⟩ | ⟨m, h1, _⟩ <;> rw [hd] at h1 <;>
        simp [List.replicate_succ] at h1
  subst hd'
  rw [List.append_nil]
  rcases h3 with ⟨_, h3⟩ | ⟨h3, _⟩ | ⟨e, m, h3, _⟩ | ⟨m, h3, h4, h5⟩
  · rw [h3] at h2; simpa using h2
  · rw [hd] at h3; cases h3
  · rw [hd] at h3; cases h3
  · rw [hd] at h3; simp [List.replicate_succ] at h3

/-- **C09**, the other direction: nothing that is such a chain is refused. -/
theorem C09_valid_chain_accepted (v : Voucher E) (w : Wf c v) (hdr : Bytes) (hh : hdrBytes v = .ok hdr)
    (n : Nat) (hn : n ≤ v.entries.contents.length) (ps : List (Payload E))
    (h : SignChain E c (v.header.guid ++ v.header.deviceInfo.toUTF8.toList) v.header.mfgKey hdr
      (v.entries.contents.take n) ps) :
    polls c v n (iterStart v) = ps.map .item := by
  have := polls_run w.info (v.entries.contents.take n) (v.entries.contents.drop n) 0 v.header.mfgKey hdr ps 0 h
    (by simp [prevBytes, hh]) (by simp)
  rw [List.length_take, Nat.min_eq_left hn] at this
  simpa [polls, iterStart] using this

/-- **C10**: however often it is polled, the iterator yields the payloads of a valid chain for the
first `ps.length` entries, in order and each once; then either nothing more was asked, or all
entries were delivered and it reports the end for ever, or it reports one error, at an entry that
does not continue the chain, and the end for ever afterwards. (The process may instead abort at an
entry; that a digest of unexpected length does so is C13.) -/
theorem C10_iteration_shape (v : Voucher E) (w : Wf c v) (n : Nat) :
    ∃ hdr, hdrBytes v = .ok hdr ∧ ∃ (ps : List (Payload E)) (tail : List (Poll E)),
      polls c v n (iterStart v) = ps.map .item ++ tail ∧
      SignChain E c (v.header.guid ++ v.header.deviceInfo.toUTF8.toList) v.header.mfgKey hdr
        (v.entries.contents.take ps.length) ps ∧
      ((tail = [] ∧ ps.length = n) ∨
       (tail = [.panic] ∧ ps.length < v.entries.contents.length) ∨
       (∃ e m, tail = .error e :: List.replicate m .done ∧ ps.length < v.entries.contents.length ∧
          ∀ p, ¬ SignChain E c (v.header.guid ++ v.header.deviceInfo.toUTF8.toList) v.header.mfgKey hdr
            (v.entries.contents.take (ps.length + 1)) (ps ++ [p])) ∨
       (∃ m, tail = List.replicate (m + 1) .done ∧ v.entries.contents.length ≤ ps.length)) := by
  obtain ⟨hdr, hhdr⟩ := w.hdr
  refine ⟨hdr, hhdr, ?_⟩
  obtain ⟨ps, tail, h1, h2, h3⟩ := polls_invariant (c := c) w.info n 0 v.header.mfgKey hdr
    (by simp [prevBytes, hhdr])
  refine ⟨ps, tail, h1, by simpa using h2, ?_⟩
  rcases h3 with h3 | ⟨h3, h4⟩ | ⟨e, m, h3, h4, h5, h6⟩ | ⟨m, h3, h4, h5⟩
  · exact .inl h3
  · exact .inr (.inl ⟨h3, by omega⟩)
  · exact .inr (.inr (.inl ⟨e, m, h3, by omega, by simpa using h6⟩))
  · exact .inr (.inr (.inr ⟨m, h3, by omega⟩))

/-- Collecting all entries until the first error agrees with polling the iterator. -/
theorem C10_collect_agrees (v : Voucher E) (w : Wf c v) (ps : List (Payload E)) :
    verifyAll c v = .ok ps ↔
      polls c v (v.entries.contents.length + 1) (iterStart v) = ps.map .item ++ [.done] := by
  obtain ⟨hdr, hhdr, qs, tail, h1, h2, h3⟩ := C10_iteration_shape v w (v.entries.contents.length + 1)
  rw [verifyAll_iff w.info hhdr]
  have hqlen : qs.length ≤ v.entries.contents.length := by
    have := h2.length
    simp at this; omega
  rw [h1]
  constructor
  · intro hsc
    have hpl := hsc.length
    have hcut : ∀ (m : Nat) (key : E.Pub) prev raws (a : List (Payload E)),
        SignChain E c (v.header.guid ++ v.header.deviceInfo.toUTF8.toList) key prev raws a →
        SignChain E c (v.header.guid ++ v.header.deviceInfo.toUTF8.toList) key prev (raws.take m) (a.take m) := by
      intro m key prev raws a ha
      induction ha generalizing m with
      | nil => simp; exact .nil
      | cons a1 a2 a3 a4 a5 _ ih =>
        cases m with
        | zero => exact .nil
        | succ m => exact .cons a1 a2 a3 a4 a5 (ih m)
    have hqs : qs = ps.take qs.length := h2.det (hcut qs.length _ _ _ _ hsc)
    rcases h3 with ⟨_, h3⟩ | ⟨h3, h4⟩ | ⟨e, m, h3, h4, h5⟩ | ⟨m, h3, h4⟩
    · omega
    · -- an abort is impossible on a valid chain: the next poll would be an item
      exfalso
      have hget := hcut (qs.length + 1) _ _ _ _ hsc
      rw [List.take_succ_eq_append_getElem (by omega)] at hget
      have e1 : ps.take (qs.length + 1) = qs ++ [ps[qs.length]'(by omega)] := by
        rw [List.take_succ_eq_append_getElem (by omega), ← hqs]
      rw [e1] at hget
      have := polls_run w.info v.entries.contents [] 0 v.header.mfgKey hdr ps 1 hsc (by simp [prevBytes, hhdr]) (by simp)
      have hst : iterStart v = ⟨0, false, v.header.mfgKey⟩ := rfl
      rw [hst, this] at h1
      rw [h3] at h1
      have := congrArg List.length h1
      simp only [List.length_append, List.length_map, List.length_cons, List.length_nil] at this
      have h0 : (polls c v 1 ⟨0 + v.entries.contents.length, false, lastOwner v.header.mfgKey ps⟩).length = 1 := by
        simp [polls, next]
      omega
    · exfalso
      have hget := hcut (qs.length + 1) _ _ _ _ hsc
      have e1 : ps.take (qs.length + 1) = qs ++ [ps[qs.length]'(by omega)] := by
        rw [List.take_succ_eq_append_getElem (by omega), ← hqs]
      rw [e1] at hget
      exact h5 _ hget
    · have hm : m = 0 := by
        have := congrArg List.length h1
        have hpolls : ∀ n st, (polls c v n st).length ≤ n := by
          intro n
          induction n with
          | zero => intro st; simp [polls]
          | succ n ih =>
            intro st
            simp only [polls]
            split
            · simp
            · have := ih (next c v st).2
              rename_i p st' hne hst
              rw [hst] at this
              simp; omega
        have hb := hpolls (v.entries.contents.length + 1) (iterStart v)
        rw [h3] at this
        simp at this
        omega
      subst hm
      rw [h3]
      have : qs = ps := by rw [hqs, List.take_of_length_le (by omega)]
      rw [this]
      rfl
  · intro h
    rcases h3 with ⟨h3, h4⟩ | ⟨h3, h4⟩ | ⟨e, m, h3, h4, h5⟩ | ⟨m, h3, h4⟩
    · omega
    · exfalso
      rw [h3] at h
      have := congrArg List.getLast? h
      simp at this
    · exfalso
      rw [h3] at h
      have hmem : (Poll.error e : Poll E) ∈ ps.map Poll.item ++ [.done] := by rw [← h]; simp
      simp at hmem
    · rw [h3] at h
      have hm : m = 0 := by
        have hb : qs.length + (m + 1) ≤ v.entries.contents.length + 1 := by
          have hpolls : ∀ n st, (polls c v n st).length ≤ n := by
            intro n
            induction n with
            | zero => intro st; simp [polls]
            | succ n ih =>
              intro st
              simp only [polls]
              split
              · simp
              · have := ih (next c v st).2
                rename_i p st' hne hst
                rw [hst] at this
                simp; omega
          have hb := hpolls (v.entries.contents.length + 1) (iterStart v)
          rw [h1, h3] at hb
          simpa using hb
        omega
      subst hm
      have hq : qs.map (Poll.item (E := E)) = ps.map Poll.item := by
        simpa using h
      have : qs = ps := by
        have hinj : Function.Injective (Poll.item (E := E)) := by
          intro a b hab; cases hab; rfl
        exact (List.map_inj_right (fun a b hab => hinj hab)).1 hq
      rw [← this]
      rwa [List.take_of_length_le h4] at h2

/-- A chain of two verified entries, so that C09 and C10 speak about something. -/
theorem exChain (c : Bool) : ∃ (v : Voucher Toy.env) (ps : List (Payload Toy.env)),
    Rewritable c v ∧ v.header = exHeader ∧ v.chain = some (9 : UInt8) ∧ v.entries.contents.length = 2 ∧
    verifyAll c v = .ok ps ∧ ps.map (·.publicKey) = [(11 : UInt8), (12 : UInt8)] := by
  obtain ⟨v, h1, h2, h3, h4, h5, h6, h7⟩ := exVoucher c
  obtain ⟨v1, raw, p, a1, a2, a3, a4, a5, a6, a7, a8, a9, a10, a11, a12, a13, a14, a15⟩ :=
    C06_extend_partial (c := c) Toy.codecLaws v h2.wf (by rw [h6]) (by rw [h6]; decide) (by rw [h6]; simp)
      [] (by unfold verifyAll; rw [h6]; rfl) (7 : UInt8) (Toy.goodKey _) (by rw [h3]; rfl) none (by simp)
      (11 : UInt8) (Toy.smallPayload _)
  obtain ⟨v2, raw2, p2, b1, b2, b3, b4, b5, b6, b7, b8, b9, b10, b11, b12, b13, b14, b15⟩ :=
    C06_extend_partial (c := c) Toy.codecLaws v1 a15 a8 (by rw [a6, h6]; simp)
      (by rw [a6, h6]; simp only [List.nil_append, List.mem_singleton]; rintro i rfl; exact a7)
      _ a2 (11 : UInt8) (Toy.goodKey _) (by rw [a5]; rfl) none (by simp)
      (12 : UInt8) (Toy.smallPayload _)
  have hit : ∀ i ∈ v2.entries.contents, IsItem i := by
    rw [b6, a6, h6]
    intro i hi
    simp only [List.nil_append, List.cons_append, List.mem_cons, List.not_mem_nil, or_false] at hi
    rcases hi with rfl | rfl
    · exact a7
    · exact b7
  have r1 : Rewritable c v1 := rewritable_extend h2 a1 a15 a8
    (by rw [a6, h6]; simp only [List.nil_append, List.mem_singleton]; rintro i rfl; exact a7)
    (by rw [a6, h6]; simp) a13 a14
  have r2 : Rewritable c v2 := rewritable_extend r1 b1 b15 b8 hit (by rw [b6, a6, h6]; simp) b13 b14
  exact ⟨v2, _, r2, by rw [b9, a9, h3], by rw [b11, a11, h5], by rw [b6, a6, h6]; rfl, b2, by simp [a3, b3]⟩

/-- The hypotheses of C09 are met: a voucher with two entries, both delivered. -/
example (c : Bool) : ∃ (v : Voucher Toy.env) (ps : List (Payload Toy.env)), Wf c v ∧
    polls c v 2 (iterStart v) = ps.map .item ∧ ps.map (·.publicKey) = [(11 : UInt8), (12 : UInt8)] := by
  obtain ⟨v, ps, h1, h2, h3, h4, h5, h6⟩ := exChain c
  obtain ⟨hdr, hh⟩ := h1.wf.hdr
  refine ⟨v, ps, h1.wf, ?_, h6⟩
  have := (verifyAll_iff h1.wf.info hh ps).1 h5
  exact C09_valid_chain_accepted v h1.wf hdr hh 2 (by omega) ps (by rwa [List.take_of_length_le (by omega)])

/-! ### C08 -/

/-- A byte string together with the byte strings it is compared with: no two different ones have the
same digest under a plain hash function. -/
def NoCollision (E : Env) (xs ys : List Bytes) : Prop :=
  ∀ t : HashType, t.isPlain = true → ∀ x ∈ xs, ∀ y ∈ ys, E.digest t x = E.digest t y → x = y

theorem chain_back {info1 info2 : Bytes} {key1 key2 : E.Pub} {hdr1 hdr2 : Bytes}
    (hsep1 : ∀ raw s, parseSign1 E c raw = .ok s → hdr1 ≠ raw)
    (hsep2 : ∀ raw s, parseSign1 E c raw = .ok s → hdr2 ≠ raw) :
    ∀ (n : Nat) (r1 r2 : List Bytes) (p1 p2 : List (Payload E)), r1.length ≤ n →
    SignChain E c info1 key1 hdr1 r1 p1 → SignChain E c info2 key2 hdr2 r2 p2 →
    NoCollision E (hdr1 :: r1) (hdr2 :: r2) →
    ((r1.getLast?).getD hdr1 = (r2.getLast?).getD hdr2) →
    r1 = r2 ∧ hdr1 = hdr2 := by
  intro n
  induction n with
  | zero =>
    intro r1 r2 p1 p2 hn h1 h2 _ hl
    have : r1 = [] := List.eq_nil_of_length_eq_zero (by omega)
    subst this
    cases hr : r2.getLast? with
    | none =>
      rw [List.getLast?_eq_none_iff.1 hr] at hl ⊢
      exact ⟨rfl, hl⟩
    | some raw =>
      rw [hr] at hl
      obtain ⟨s, p, a1, _⟩ := h2.last hr
      exact absurd hl (hsep1 _ s a1)
  | succ n ih =>
    intro r1 r2 p1 p2 hn h1 h2 hc hl
    rcases List.eq_nil_or_concat r1 with rfl | ⟨i1, x1, hr1⟩
    · exact ih [] r2 p1 p2 (by simp) h1 h2 hc hl
    rw [List.concat_eq_append] at hr1
    subst hr1
    rcases List.eq_nil_or_concat r2 with rfl | ⟨i2, x2, hr2⟩
    · rw [List.getLast?_append, List.getLast?_singleton] at hl
      obtain ⟨s, p, a1, _⟩ := h1.last (raw := x1) (by simp)
      exact absurd hl.symm (hsep2 _ s a1)
    rw [List.concat_eq_append] at hr2
    subst hr2
    simp only [List.getLast?_append, List.getLast?_singleton, Option.some_or, Option.getD_some] at hl
    subst hl
    obtain ⟨q1, l1, p, e1, b1, b2, b3⟩ := h1.split_last
    obtain ⟨q2, l2, p', e2, d1, d2, d3⟩ := h2.split_last
    rw [b1] at d1; cases d1
    rw [b2] at d2; cases d2
    have heq : (i1.getLast?).getD hdr1 = (i2.getLast?).getD hdr2 := by
      refine hc _ b3.1 _ ?_ _ ?_ (b3.2.symm.trans d3.2)
      · cases hg : i1.getLast? with
        | none => simp
        | some y => simp [List.mem_of_getLast? hg]
      · cases hg : i2.getLast? with
        | none => simp
        | some y => simp [List.mem_of_getLast? hg]
    have hc' : NoCollision E (hdr1 :: i1) (hdr2 :: i2) := by
      intro t ht x hx y hy
      refine hc t ht x ?_ y ?_
      · simp only [List.mem_cons, List.mem_append] at hx ⊢; rcases hx with hx | hx <;> simp [hx]
      · simp only [List.mem_cons, List.mem_append] at hy ⊢; rcases hy with hy | hy <;> simp [hy]
    obtain ⟨r, h⟩ := ih i1 i2 q1 q2 (by simp at hn; omega) e1 e2 hc' heq
    exact ⟨by rw [r], h⟩

/-- The header byte string of a voucher contains the header array and nothing after it. -/
def HeaderExact (c : Bool) (v : Voucher E) : Prop :=
  ∀ hb, getLeaf E.decBytes v.contents 1 = .ok hb → ∃ a, Cbor.deserialize c (some 6) hb = .ok (a, [])

/-- **C08**. Two vouchers that verify end to end and carry the same last entry, with no digest
collision between the byte strings of the one and those of the other: same entries, byte for byte,
and same header. The header HMAC is the same as well provided the header byte strings carry no
trailing bytes or the two HMAC elements have the same length. Missing: without that proviso the HMAC
may differ (`C08_tamper_evident_violated`). -/
theorem C08_tamper_evident_partial (v1 v2 : Voucher E) (w1 : Wf c v1) (w2 : Wf c v2)
    (ps1 ps2 : List (Payload E)) (h1 : verifyAll c v1 = .ok ps1) (h2 : verifyAll c v2 = .ok ps2)
    (last : Bytes) (hl1 : v1.entries.contents.getLast? = some last)
    (hl2 : v2.entries.contents.getLast? = some last)
    (hdr1 hdr2 : Bytes) (hh1 : hdrBytes v1 = .ok hdr1) (hh2 : hdrBytes v2 = .ok hdr2)
    (hcol : NoCollision E (hdr1 :: v1.entries.contents) (hdr2 :: v2.entries.contents)) :
    v1.entries.contents = v2.entries.contents ∧ hdr1 = hdr2 ∧ v1.header = v2.header ∧ ps1 = ps2 ∧
    ((HeaderExact c v1 ∧ HeaderExact c v2) ∨
      (∃ m1 m2, getRaw v1.contents 2 = .ok m1 ∧ getRaw v2.contents 2 = .ok m2 ∧ m1.length = m2.length) →
      v1.hmac = v2.hmac ∧ v1.contents.contents[2]? = v2.contents.contents[2]? ∧
      getLeaf E.decBytes v1.contents 1 = getLeaf E.decBytes v2.contents 1) := by
  have c1 := (verifyAll_iff w1.info hh1 ps1).1 h1
  have c2 := (verifyAll_iff w2.info hh2 ps2).1 h2
  have hsep : ∀ (v : Voucher E) (hdr : Bytes), Wf c v → hdrBytes v = .ok hdr →
      ∀ raw s, parseSign1 E c raw = .ok s → hdr ≠ raw := by
    rintro v hdr w hh raw s hp rfl
    obtain ⟨hb, x1, x2⟩ := w.header
    obtain ⟨a, r, x3⟩ := header_parse x2
    unfold hdrBytes at hh
    rw [x1, Res.bind_ok] at hh
    obtain ⟨m, x4, x5⟩ := Res.bind_eq_ok.1 hh
    cases x5
    unfold parseSign1 at hp
    obtain ⟨⟨a', r'⟩, x6, _⟩ := Res.bind_eq_ok.1 hp
    have := size_unique (deserialize_mono (q := m) x3) (liftP_eq_ok.1 x6)
    omega
  obtain ⟨he, hd⟩ := chain_back (hsep v1 hdr1 w1 hh1) (hsep v2 hdr2 w2 hh2) _ _ _ _ _ (Nat.le_refl _) c1 c2
    hcol (by rw [hl1, hl2]; rfl)
  subst hd
  obtain ⟨hb1, x1, x2⟩ := w1.header
  obtain ⟨hb2, y1, y2⟩ := w2.header
  unfold hdrBytes at hh1 hh2
  rw [x1, Res.bind_ok] at hh1
  rw [y1, Res.bind_ok] at hh2
  obtain ⟨m1, x4, x5⟩ := Res.bind_eq_ok.1 hh1
  obtain ⟨m2, y4, y5⟩ := Res.bind_eq_ok.1 hh2
  have hcat : hb1 ++ m1 = hb2 ++ m2 := (Res.ok.inj x5).trans (Res.ok.inj y5).symm
  have hhead : v1.header = v2.header := by
    have := header_mono x2 m1
    rw [hcat, header_mono y2 m2] at this
    exact (Res.ok.inj this).symm
  refine ⟨he, rfl, hhead, ?_, ?_⟩
  · rw [hhead, he] at c1
    exact c1.det c2
  · intro hor
    have hlen : m1.length = m2.length := by
      rcases hor with ⟨g1, g2⟩ | ⟨n1, n2, g1, g2, g3⟩
      · obtain ⟨a1, z1⟩ := g1 _ x1
        obtain ⟨a2, z2⟩ := g2 _ y1
        have e1 := deserialize_mono (q := m1) z1
        have e2 := deserialize_mono (q := m2) z2
        rw [hcat, e2] at e1
        simp only [List.nil_append, Res.ok.injEq, Prod.mk.injEq] at e1
        rw [e1.2]
      · rw [x4] at g1; cases g1
        rw [y4] at g2; cases g2
        exact g3
    obtain ⟨q1, q2⟩ := List.append_inj' hcat hlen
    subst q1 q2
    have hraw : ∀ (v : Voucher E) m, getRaw v.contents 2 = .ok m → v.contents.contents[2]? = some m := by
      intro v m h
      unfold getRaw at h
      split at h
      · cases h
      · rename_i hh; cases h; exact hh
    have r1 := hraw _ _ x4
    have r2 := hraw _ _ y4
    refine ⟨?_, by rw [r1, r2], by rw [x1, y1]⟩
    have e1 := w1.hmac
    have e2 := w2.hmac
    unfold getLeaf at e1 e2
    rw [r1] at e1
    rw [r2] at e2
    simp only at e1 e2
    rw [e1] at e2
    exact Res.ok.inj e2

/-- Two values of the example meeting the hypotheses of C08 (a voucher and itself, two entries). -/
example (c : Bool) : ∃ (v : Voucher Toy.env) (ps : List (Payload Toy.env)) (last hdr : Bytes),
    Wf c v ∧ verifyAll c v = .ok ps ∧ v.entries.contents.getLast? = some last ∧ hdrBytes v = .ok hdr := by
  obtain ⟨v, ps, h1, h2, h3, h4, h5, h6⟩ := exChain c
  obtain ⟨hdr, hh⟩ := h1.wf.hdr
  have hne : v.entries.contents ≠ [] := by intro h; rw [h] at h4; cases h4
  exact ⟨v, ps, _, hdr, h1.wf, h5, List.getLast?_eq_some_getLast hne, hh⟩

theorem new_contents {h : Header E} {hmac : Hash} {ch : Option E.Chain} {v : Voucher E}
    (hn : new h hmac ch = .ok v) : ∃ hb eb, Cbor.serialize h.contents = .ok hb ∧
      Cbor.serialize ⟨none, []⟩ = .ok eb ∧
      v.contents = ⟨none, [E.encVersion 101, E.encBytes hb, E.encHash hmac, E.encChainOpt ch, eb]⟩ := by
  unfold new at hn
  obtain ⟨hb, h1, hn⟩ := Res.bind_eq_ok.1 hn
  obtain ⟨eb, h2, hn⟩ := Res.bind_eq_ok.1 hn
  cases hn
  exact ⟨hb, eb, liftP_eq_ok.1 h1, liftP_eq_ok.1 h2, rfl⟩

/-- The unrestricted C08 is false: two vouchers, both readable and verifying, with the same entries
and hashing the same header-and-HMAC bytes (so no hash function whatsoever tells them apart), carry
different header HMACs. The boundary between header bytes and HMAC is not covered by the hash, and
bytes after the header array are ignored. -/
theorem C08_tamper_evident_violated (c : Bool) : ∃ (E : Env) (v1 v2 : Voucher E) (b1 b2 : Bytes)
    (ps : List (Payload E)), CodecLaws E ∧ LeafLaws E ∧
    deserialize c b1 = .ok (v1, []) ∧ deserialize c b2 = .ok (v2, []) ∧
    verifyAll c v1 = .ok ps ∧ verifyAll c v2 = .ok ps ∧ ps ≠ [] ∧
    v1.entries = v2.entries ∧ hdrBytes v1 = hdrBytes v2 ∧ v1.hmac ≠ v2.hmac := by
  let m2h : Hash := ⟨.hmacSha256, List.replicate 32 3⟩
  let m2 : Bytes := Toy.encHash m2h
  let m1h : Hash := ⟨.hmacSha256, m2⟩
  let x : Bytes := 0x82 :: 0x05 :: 0x5b :: toBe 8 m2.length
  have hx : Toy.encHash m1h = x ++ m2 := by
    simp [Toy.encHash, m1h, x, Toy.encBytes, Toy.encType]
  obtain ⟨hb, hs, hd⟩ := header_roundtrip (c := c) exHeader_wf []
  have hsz : ∀ bs, Cbor.serialize exHeader.contents = .ok bs → bs.length < 2 ^ 62 := by
    intro bs h
    have h3 : bs = [0x86] ++ exHeader.contents.contents.flatten := by
      have : (exHeader.contents.tag) = none := rfl
      unfold Cbor.serialize at h
      simp only [this] at h
      injection h with h
      exact h.symm
    rw [h3]
    simp only [exHeader, Header.new]
    decide +kernel
  have hm1 : (Toy.encHash m1h).length < 2 ^ 63 := by decide +kernel
  have hm2 : (Toy.encHash m2h).length < 2 ^ 63 := by decide +kernel
  obtain ⟨v0, n1, n2, n3, n4, n5, n6, n7⟩ := rewritable_new (c := c) Toy.leafLaws Toy.codecLaws exHeader_wf
    (hmac := m1h) hm1 (ch := (9 : UInt8)) (by decide) (fun bs h => Nat.lt_trans (hsz bs h) (by decide))
  obtain ⟨v1, raw, p, a1, a2, a3, a4, a5, a6, a7, a8, a9, a10, a11, a12, a13, a14, a15⟩ :=
    C06_extend_partial (c := c) Toy.codecLaws v0 n2.wf (by rw [n6]) (by rw [n6]; decide) (by rw [n6]; simp)
      [] (by unfold verifyAll; rw [n6]; rfl) (7 : UInt8) (Toy.goodKey _) (by rw [n3]; rfl) none (by simp)
      (11 : UInt8) (Toy.smallPayload _)
  have r1 : Rewritable c v1 := rewritable_extend n2 a1 a15 a8
    (by rw [a6, n6]; simp only [List.nil_append, List.mem_singleton]; rintro i rfl; exact a7)
    (by rw [a6, n6]; simp) a13 a14
  obtain ⟨hb', eb, k1, k2, k3⟩ := new_contents n1
  rw [hs] at k1
  cases k1
  have hbl := hsz _ hs
  have hbl' : (hb ++ x).length < 2 ^ 63 := by
    have : x.length = 11 := by simp [x, toBe_length]
    rw [List.length_append]; omega
  have g1 : v1.contents.contents[1]? = some (Toy.encBytes hb) := by rw [a13 1 (by omega), k3]; rfl
  have g2 : v1.contents.contents[2]? = some (x ++ m2) := by rw [a13 2 (by omega), k3, ← hx]; rfl
  let v2 : Voucher Toy.env := { v1 with
    hmac := m2h
    contents := { v1.contents with contents :=
      (v1.contents.contents.set 1 (Toy.encBytes (hb ++ x))).set 2 m2 } }
  have hl5 := r1.wf.len
  have o1 : v2.contents.contents[1]? = some (Toy.encBytes (hb ++ x)) := by
    simp only [v2]
    rw [List.getElem?_set_ne (by omega), List.getElem?_set_self (by omega)]
  have o2 : v2.contents.contents[2]? = some m2 := by
    simp only [v2]
    rw [List.getElem?_set_self (by simp; omega)]
  have oo : ∀ i, i ≠ 1 → i ≠ 2 → v2.contents.contents[i]? = v1.contents.contents[i]? := by
    intro i h1 h2
    simp only [v2]
    rw [List.getElem?_set_ne (by omega), List.getElem?_set_ne (by omega)]
  rw [List.append_nil] at hd
  have hv1h : v1.header = exHeader := by rw [a9, n3]
  have w2 : Wf c v2 := by
    obtain ⟨_, w1, _, w4, w5, er, r, w6, w7⟩ := a15
    refine ⟨by simp [v2, hl5], ?_, ⟨hb ++ x, ?_, ?_⟩, ?_, ?_, er, r, ?_, w7⟩
    · unfold getLeaf at w1 ⊢; rw [oo 0 (by omega) (by omega)]; exact w1
    · unfold getLeaf; rw [o1]
      exact ofOpt_eq_ok.2 (Toy.codecLaws.bytes_dec _ hbl')
    · have : v2.header = exHeader := hv1h
      rw [this]
      exact header_mono hd x
    · unfold getLeaf; rw [o2]
      exact ofOpt_eq_ok.2 (Toy.leafLaws.hash_dec _ hm2)
    · unfold getLeaf at w5 ⊢; rw [oo 3 (by omega) (by omega)]; exact w5
    · unfold getRaw at w6 ⊢; rw [oo 4 (by omega) (by omega)]; exact w6
  have r2 : Rewritable c v2 := by
    refine ⟨w2, r1.tag, ?_⟩
    intro i hi
    obtain ⟨j, hj, rfl⟩ := List.mem_iff_getElem.1 hi
    by_cases hj1 : j = 1
    · subst hj1
      rw [List.getElem?_eq_getElem hj] at o1
      rw [Option.some.inj o1]
      exact Toy.isItem_encBytes hbl'
    · by_cases hj2 : j = 2
      · subst hj2
        rw [List.getElem?_eq_getElem hj] at o2
        rw [Option.some.inj o2]
        exact Toy.leafLaws.hash_item _ hm2
      · have h0 := oo j hj1 hj2
        rw [List.getElem?_eq_getElem hj] at h0
        exact r1.items _ (List.mem_of_getElem? h0.symm)
  have hdr1 : hdrBytes v1 = .ok (hb ++ (x ++ m2)) := by
    unfold hdrBytes getLeaf getRaw
    rw [g1, g2]
    simp only
    rw [ofOpt_eq_ok.2 (Toy.codecLaws.bytes_dec hb (by omega))]
    rfl
  have hdr2 : hdrBytes v2 = .ok (hb ++ (x ++ m2)) := by
    unfold hdrBytes getLeaf getRaw
    rw [o1, o2]
    simp only
    rw [ofOpt_eq_ok.2 (Toy.codecLaws.bytes_dec (hb ++ x) hbl'), ← List.append_assoc]
    rfl
  obtain ⟨b1, s1, d1⟩ := rewritable_roundtrip r1 []
  obtain ⟨b2, s2, d2⟩ := rewritable_roundtrip r2 []
  rw [List.append_nil] at d1 d2
  refine ⟨Toy.env, v1, v2, b1, b2, [] ++ [p], Toy.codecLaws, Toy.leafLaws, d1, d2, a2, ?_, by simp, rfl,
    by rw [hdr1, hdr2], ?_⟩
  · exact (verifyAll_iff (v := v2) a15.info hdr2 _).2 ((verifyAll_iff a15.info hdr1 _).1 a2)
  · have : v1.hmac = m1h := by rw [a10, n4]
    rw [this]
    show m1h ≠ m2h
    decide +kernel

/-! ### C11 -/

/-- **C11** (assembling). A voucher built from a header with a certificate chain hash, an HMAC and a
device certificate chain can be written and is read back equal: header, HMAC, chain and entries.
Missing: vouchers without a chain or without a chain hash (`C11_absent_chain_violated`,
`C11_from_parts_violated`, `C11_absent_chain_hash_violated`). -/
theorem C11_new_roundtrip_partial (L : LeafLaws E) (C : CodecLaws E) (version : Nat)
    (hver : version = 100 ∨ version = 101) (guid : Bytes) (hg : guid.length = 16) (rv : E.Rv)
    (info : String) (hinfo : ∀ ch ∈ info.toList, 32 ≤ ch.toNat ∧ ch.toNat ≤ 126) (key : E.Pub)
    (chainHash : Hash) (hs : SmallHeader E rv info key (some chainHash))
    (hsz : ∀ bs, Cbor.serialize (Header.new E version guid rv info key (some chainHash)).contents = .ok bs →
      bs.length < 2 ^ 63)
    (hmac : Hash) (hm : (E.encHash hmac).length < 2 ^ 63)
    (chain : E.Chain) (hc : (E.encChainOpt (some chain)).length < 2 ^ 63) (rest : Bytes) :
    ∃ v bs, new (Header.new E version guid rv info key (some chainHash)) hmac (some chain) = .ok v ∧
      serialize v = .ok bs ∧ deserialize c (bs ++ rest) = .ok (v, rest) ∧
      v.header.guid = guid ∧ v.header.deviceInfo = info ∧ v.header.mfgKey = key ∧ v.header.rv = rv ∧
      v.header.chainHash = some chainHash ∧ v.hmac = hmac ∧ v.chain = some chain ∧ v.entries = ⟨none, []⟩ := by
  have hok : deviceInfoOk info = true := by
    unfold deviceInfoOk
    rw [List.all_eq_true]
    intro ch h
    have := hinfo ch h
    rw [Nat.mod_eq_of_lt (by omega)]
    simp only [Bool.and_eq_true, decide_eq_true_eq]
    omega
  obtain ⟨v, h1, h2, h3, h4, h5, h6, h7⟩ := rewritable_new (c := c) L C (headerWf_new L hver hg hok hs) hm hc hsz
  obtain ⟨bs, b1, b2⟩ := rewritable_roundtrip h2 rest
  refine ⟨v, bs, h1, b1, b2, ?_, ?_, ?_, ?_, ?_, h4, h5, h6⟩ <;> rw [h3] <;> rfl

/-- **C11** (with entries). Any readable-and-rewritable voucher that is extended any number of times
by its owners can be written and is read back equal, entries included. -/
theorem C11_extended_roundtrip_partial (L : CodecLaws E) (steps : List (Step E)) :
    ∀ (v : Voucher E) (ps : List (Payload E)), Rewritable c v → v.entries.tag = none →
      v.entries.contents.length + steps.length ≤ 65535 →
      (∀ i ∈ v.entries.contents, IsItem i) → verifyAll c v = .ok ps →
      (∀ st ∈ steps, GoodKey E st.1 ∧ (st.2.1.isSome → 101 ≤ v.version) ∧ SmallPayload E st.2.1 st.2.2) →
      OwnerSteps (lastOwner v.header.mfgKey ps) steps → ∀ rest : Bytes,
      ∃ v' bs, extendMany c v steps = (v', .ok ()) ∧ serialize v' = .ok bs ∧
        deserialize c (bs ++ rest) = .ok (v', rest) ∧ v'.header = v.header ∧ v'.hmac = v.hmac ∧
        v'.chain = v.chain ∧ v.entries.contents <+: v'.entries.contents ∧
        v'.entries.contents.length = v.entries.contents.length + steps.length := by
  induction steps with
  | nil =>
    intro v ps r ht hn hi hv _ _ rest
    obtain ⟨bs, b1, b2⟩ := rewritable_roundtrip r rest
    exact ⟨v, bs, rfl, b1, b2, rfl, rfl, rfl, List.prefix_refl _, by simp⟩
  | cons st steps ih =>
    intro v ps r ht hn hi hv hst ho rest
    obtain ⟨k, x, n⟩ := st
    obtain ⟨g1, g2, g3⟩ := hst (k, x, n) (by simp)
    simp only [List.length_cons] at hn
    obtain ⟨v1, raw, p, a1, a2, a3, a4, a5, a6, a7, a8, a9, a10, a11, a12, a13, a14, a15⟩ :=
      C06_extend_partial L v r.wf ht (by omega) hi ps hv k g1 ho.1 x g2 n g3
    have hit : ∀ i ∈ v1.entries.contents, IsItem i := by
      intro i hi'
      rw [a6] at hi'
      rcases List.mem_append.1 hi' with hi' | hi'
      · exact hi i hi'
      · simp only [List.mem_singleton] at hi'; subst hi'; exact a7
    have r1 : Rewritable c v1 := rewritable_extend r a1 a15 a8 hit (by rw [a6]; simp; omega) a13 a14
    obtain ⟨v', bs, b1, b2, b3, b4, b5, b6, b7, b8⟩ :=
      ih v1 (ps ++ [p]) r1 a8 (by rw [a6]; simp; omega) hit a2 (by
          intro st h
          rw [a12]
          exact hst st (by simp [h]))
        (by rw [a5]; exact ho.2) rest
    refine ⟨v', bs, ?_, b2, b3, by rw [b4, a9], by rw [b5, a10], by rw [b6, a11], ?_, ?_⟩
    · simp only [extendMany, a1, b1]
    · rw [a6] at b7; exact (List.prefix_append _ _).trans b7
    · rw [b8, a6]; simp; omega

/-- The example voucher, extended twice, meets the hypotheses. -/
example (c : Bool) (rest : Bytes) : ∃ (v v' : Voucher Toy.env) (bs : Bytes),
    new exHeader ⟨.hmacSha256, List.replicate 32 2⟩ (some (9 : UInt8)) = .ok v ∧
    extendMany c v [((7 : UInt8), none, (11 : UInt8)), ((11 : UInt8), none, (12 : UInt8))] = (v', .ok ()) ∧
    serialize v' = .ok bs ∧ deserialize c (bs ++ rest) = .ok (v', rest) ∧ v'.entries.contents.length = 2 := by
  obtain ⟨v, h1, h2, h3, h4, h5, h6, h7⟩ := exVoucher c
  obtain ⟨v', bs, b1, b2, b3, _, _, _, _, b8⟩ := C11_extended_roundtrip_partial (c := c) Toy.codecLaws
    [((7 : UInt8), none, (11 : UInt8)), ((11 : UInt8), none, (12 : UInt8))] v [] h2 (by rw [h6])
    (by rw [h6]; decide) (by rw [h6]; simp) (by unfold verifyAll; rw [h6]; rfl)
    (by
      intro st hst
      refine ⟨Toy.goodKey _, ?_, ?_⟩
      · intro _; rw [h7]; omega
      · simp only [List.mem_cons, List.not_mem_nil, or_false] at hst
        rcases hst with rfl | rfl <;> exact Toy.smallPayload _)
    (by rw [h3]; exact ⟨rfl, rfl, trivial⟩) rest
  exact ⟨v, v', bs, h1, b1, b2, b3, by rw [b8, h6]; rfl⟩

/-- **C11 fails without a device certificate chain**: whatever the header and HMAC, a voucher made by
`new` without a chain is written successfully but never read back (a CBOR null is not accepted). -/
theorem C11_absent_chain_violated (L : LeafLaws E) (C : CodecLaws E) (h : Header E) (hmac : Hash)
    (hm : (E.encHash hmac).length < 2 ^ 63) (v : Voucher E) (hn : new h hmac none = .ok v)
    (hsz : ∀ hb, Cbor.serialize h.contents = .ok hb → hb.length < 2 ^ 63) :
    ∃ bs, serialize v = .ok bs ∧
      (deserialize (E := E) c bs) = .err (.parse (.unsupportedMajorType 7)) := by
  obtain ⟨hb, eb, k1, k2, k3⟩ := new_contents hn
  rw [L.chainOpt_none] at k3
  obtain ⟨ah, hae, hah⟩ := isHead_encode (m := 4) (v := 5) (by omega) (by omega)
  have hser : Cbor.serialize v.contents = .ok (ah ++ (v.contents.contents).flatten) := by
    rw [k3]
    simp only [Cbor.serialize]
    rw [show (pure [] : Res ParseErr Bytes) = .ok [] from rfl, Res.bind_ok]
    simp only [List.length_cons, List.length_nil]
    rw [hae, Res.bind_ok]
    rfl
  refine ⟨_, by rw [serialize, hser, liftP_ok], ?_⟩
  have := deserialize_null (c := c) (n := 5) (l := [E.encVersion 101, E.encBytes hb, E.encHash hmac])
    (more := [eb]) (by
      intro i hi
      simp only [List.mem_cons, List.not_mem_nil, or_false] at hi
      rcases hi with rfl | rfl | rfl
      · exact L.version_item _ (.inr rfl)
      · exact C.bytes_item _ (hsz _ k1)
      · exact L.hash_item _ hm) (by simp) (by omega) (by simp) (by rw [k3] at hser; exact hser)
  unfold deserialize
  rw [k3] at *
  rw [this]

/-- **C11 fails for `from_parts`**: it never carries a certificate chain, so no voucher assembled by it
(the owner server's and client's reassembly) can be written and read back. -/
theorem C11_from_parts_violated (L : LeafLaws E) (C : CodecLaws E) (version : Nat)
    (hver : version = 100 ∨ version = 101) (header : Bytes) (hh : header.length < 2 ^ 63) (hmac : Hash)
    (hm : (E.encHash hmac).length < 2 ^ 63) (entries : ParsedArray) (v : Voucher E)
    (hn : fromParts c version header hmac entries = .ok v) :
    ∃ bs, serialize v = .ok bs ∧
      (deserialize (E := E) c bs) = .err (.parse (.unsupportedMajorType 7)) := by
  unfold fromParts at hn
  obtain ⟨eb, h1, hn⟩ := Res.bind_eq_ok.1 hn
  obtain ⟨hd, h2, hn⟩ := Res.bind_eq_ok.1 hn
  have k3 : v.contents = ⟨none, [E.encVersion version, E.encBytes header, E.encHash hmac, [0xf6], eb]⟩ := by
    cases hn
    simp only [L.chainOpt_none]
  obtain ⟨ah, hae, hah⟩ := isHead_encode (m := 4) (v := 5) (by omega) (by omega)
  have hser : Cbor.serialize v.contents = .ok (ah ++ (v.contents.contents).flatten) := by
    rw [k3]
    simp only [Cbor.serialize]
    rw [show (pure [] : Res ParseErr Bytes) = .ok [] from rfl, Res.bind_ok]
    simp only [List.length_cons, List.length_nil]
    rw [hae, Res.bind_ok]
    rfl
  refine ⟨_, by rw [serialize, hser, liftP_ok], ?_⟩
  have := deserialize_null (c := c) (n := 5) (l := [E.encVersion version, E.encBytes header, E.encHash hmac])
    (more := [eb]) (by
      intro i hi
      simp only [List.mem_cons, List.not_mem_nil, or_false] at hi
      rcases hi with rfl | rfl | rfl
      · exact L.version_item _ hver
      · exact C.bytes_item _ hh
      · exact L.hash_item _ hm) (by simp) (by omega) (by simp) (by rw [k3] at hser; exact hser)
  unfold deserialize
  rw [k3] at *
  rw [this]

/-- **C11 fails without a certificate chain hash** in the header: such a header is written but not
read back. -/
theorem C11_absent_chain_hash_violated (L : LeafLaws E) (version : Nat)
    (hver : version = 100 ∨ version = 101) (guid : Bytes) (hg : guid.length = 16) (rv : E.Rv)
    (info : String) (key : E.Pub) (hs : SmallHeader E rv info key none) (hok : deviceInfoOk info = true) :
    ∃ bs, Header.serialize E (Header.new E version guid rv info key none) = .ok bs ∧
      Header.deserialize E c bs = .err (.parse (.unsupportedMajorType 7)) := by
  obtain ⟨ah, hae, hah⟩ := isHead_encode (m := 4) (v := 6) (by omega) (by omega)
  let l := [E.encVersion version, E.encGuid guid, E.encRv rv, E.encText info, E.encPub key]
  have hser : Cbor.serialize ⟨none, l ++ [0xf6] :: []⟩ = .ok (ah ++ (l ++ [[0xf6]]).flatten) := by
    simp only [Cbor.serialize]
    rw [show (pure [] : Res ParseErr Bytes) = .ok [] from rfl, Res.bind_ok]
    have : (l ++ [[0xf6]]).length = 6 := rfl
    rw [this, hae, Res.bind_ok]
    rfl
  refine ⟨ah ++ (l ++ [[0xf6]]).flatten, ?_, ?_⟩
  · have : (Header.new E version guid rv info key none).contents = ⟨none, l ++ [0xf6] :: []⟩ := by
      simp only [Header.new, L.hashOpt_none]; rfl
    have h2 : (Header.new E version guid rv info key none).deviceInfo = info := rfl
    simp only [Header.serialize, this, hser, h2, hok, liftP_ok, Bool.not_true, Bool.false_eq_true, if_false]
  · have := deserialize_null (c := c) (n := 6) (l := l) (more := []) (by
      intro i hi
      simp only [l, List.mem_cons, List.not_mem_nil, or_false] at hi
      rcases hi with rfl | rfl | rfl | rfl | rfl
      · exact L.version_item _ hver
      · exact L.guid_item _ hg
      · exact L.rv_item _ hs.rv
      · exact L.text_item _ hs.info
      · exact L.pub_item _ hs.key) (by simp [l]) (by omega) (by simp [l]) hser
    unfold Header.deserialize
    rw [this]
    rfl

/-- The violations are not vacuous: the toy environment has such vouchers. -/
example : ∃ v : Voucher Toy.env, new exHeader ⟨.hmacSha256, List.replicate 32 2⟩ none = .ok v := by
  obtain ⟨hb, h1, _⟩ := header_roundtrip (c := true) exHeader_wf []
  obtain ⟨eb, e1, _⟩ := roundtrip (c := true) none ⟨none, []⟩ [] (by simp) (by simp) (by simp) (.inl rfl)
  exact ⟨_, by simp only [new, h1, e1, liftP_ok, Res.bind_ok, Res.pure_eq]; rfl⟩

/-! ### C12 -/

/-- Printable ASCII: space to tilde. -/
def Printable (s : String) : Prop := ∀ ch ∈ s.toList, 32 ≤ ch.toNat ∧ ch.toNat ≤ 126

theorem deviceInfoOk_iff {s : String} (h : ∀ ch ∈ s.toList, ch.toNat < 256) :
    deviceInfoOk s = true ↔ Printable s := by
  unfold deviceInfoOk Printable
  rw [List.all_eq_true]
  constructor
  · intro hp ch hc
    have := hp ch hc
    rw [Nat.mod_eq_of_lt (h ch hc)] at this
    simp only [Bool.and_eq_true, decide_eq_true_eq] at this
    omega
  · intro hp ch hc
    have := hp ch hc
    rw [Nat.mod_eq_of_lt (h ch hc)]
    simp only [Bool.and_eq_true, decide_eq_true_eq]
    omega

/-- **C12** (restricted to device info of 8-bit characters): a header that is read, or that can be
written, has printable ASCII device info, and a header with unprintable device info is refused by
the writer. Missing: characters from U+0100 on (`C12_device_info_violated`). -/
theorem C12_device_info_partial (inp : Bytes) (h : Header E)
    (hc : ∀ ch ∈ h.deviceInfo.toList, ch.toNat < 256) :
    (Header.deserialize E c inp = .ok h → Printable h.deviceInfo) ∧
    ((∃ bs, Header.serialize E h = .ok bs) → Printable h.deviceInfo) ∧
    (¬ Printable h.deviceInfo → Header.serialize E h = .err .inconsistentValue) := by
  refine ⟨?_, ?_, ?_⟩
  · intro hd
    unfold Header.deserialize at hd
    obtain ⟨⟨a, r⟩, h1, hd⟩ := Res.bind_eq_ok.1 hd
    obtain ⟨v, h2, hd⟩ := Res.bind_eq_ok.1 hd
    obtain ⟨g, h3, hd⟩ := Res.bind_eq_ok.1 hd
    obtain ⟨rv, h4, hd⟩ := Res.bind_eq_ok.1 hd
    obtain ⟨info, h5, hd⟩ := Res.bind_eq_ok.1 hd
    split at hd
    · cases hd
    · rename_i hok
      obtain ⟨k, h6, hd⟩ := Res.bind_eq_ok.1 hd
      obtain ⟨ch, h7, hd⟩ := Res.bind_eq_ok.1 hd
      cases hd
      exact (deviceInfoOk_iff hc).1 (by simpa using hok)
  · rintro ⟨bs, hs⟩
    unfold Header.serialize at hs
    split at hs
    · cases hs
    · rename_i hok
      exact (deviceInfoOk_iff hc).1 (by simpa using hok)
  · intro hp
    unfold Header.serialize
    have : deviceInfoOk h.deviceInfo = false := by
      cases hb : deviceInfoOk h.deviceInfo
      · rfl
      · exact absurd ((deviceInfoOk_iff hc).1 hb) hp
    rw [this]
    rfl

example : (∀ ch ∈ exHeader.deviceInfo.toList, ch.toNat < 256) ∧ Printable exHeader.deviceInfo := by
  constructor
  · decide
  · unfold Printable; decide

/-- The unrestricted C12 is false: device info "Ġ" (U+0120) is written and read back, because only
the low byte of a character is looked at. -/
theorem C12_device_info_violated (c : Bool) : ∃ (E : Env) (h : Header E) (bs : Bytes),
    LeafLaws E ∧ ¬ Printable h.deviceInfo ∧ Header.serialize E h = .ok bs ∧
    Header.deserialize E c bs = .ok h := by
  let h : Header Toy.env := Header.new Toy.env 101 (List.replicate 16 0xaa) () "Ġ" (7 : UInt8)
    (some ⟨.sha256, List.replicate 32 1⟩)
  have hw : HeaderWf h := headerWf_new Toy.leafLaws (.inr rfl) rfl (by decide) ⟨by decide, by decide, by decide, by decide⟩
  obtain ⟨bs, b1, b2⟩ := header_roundtrip (c := c) hw []
  rw [List.append_nil] at b2
  refine ⟨Toy.env, h, bs, Toy.leafLaws, ?_, ?_, b2⟩
  · unfold Printable
    intro hp
    have := hp 'Ġ' (by decide)
    revert this
    decide
  · have hi : h.deviceInfo = "Ġ" := rfl
    have : deviceInfoOk "Ġ" = true := by decide
    simp only [Header.serialize, hi, this, b1, liftP_ok, Bool.not_true, Bool.false_eq_true, if_false]

/-- A second gap: assembling a voucher bypasses the check on writing. A header with a line break as
device info goes into a voucher, which is written. -/
theorem C12_new_unchecked_violated : ∃ (E : Env) (h : Header E) (hmac : Hash) (ch : E.Chain)
    (v : Voucher E) (bs : Bytes), LeafLaws E ∧ ¬ Printable h.deviceInfo ∧
    new h hmac (some ch) = .ok v ∧ serialize v = .ok bs := by
  let h : Header Toy.env := Header.new Toy.env 101 (List.replicate 16 0xaa) () "\n" (7 : UInt8)
    (some ⟨.sha256, List.replicate 32 1⟩)
  have hc : ∃ hb, Cbor.serialize h.contents = .ok hb := by
    obtain ⟨ah, hae, hah⟩ := isHead_encode (m := 4) (v := 6) (by omega) (by omega)
    refine ⟨ah ++ h.contents.contents.flatten, ?_⟩
    unfold Cbor.serialize
    have : h.contents.contents.length = 6 := rfl
    rw [this, hae]
    rfl
  obtain ⟨hb, h1⟩ := hc
  obtain ⟨eb, e1, _⟩ := roundtrip (c := true) none ⟨none, []⟩ [] (by simp) (by simp) (by simp) (.inl rfl)
  refine ⟨Toy.env, h, ⟨.hmacSha256, List.replicate 32 2⟩, (9 : UInt8), _, _, Toy.leafLaws, ?_,
    by simp only [new, h1, e1, liftP_ok, Res.bind_ok, Res.pure_eq]; rfl, rfl⟩
  unfold Printable
  intro hp
  have := hp '\n' (by decide)
  revert this
  decide

end Verif.Voucher
