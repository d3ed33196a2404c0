import Verif.Spec.Canonical
import Verif.Props.Voucher
/-!
The vouchers which `extend` makes are in the form described by `Canonical`.
-/
namespace Verif.Voucher
open Verif Verif.Cbor Verif.Cbor.Spec

variable {E : Env} {c : Bool}

theorem isItem_form {e : Bytes} (h : ∃ l : List Bytes, l.length = 4 ∧ (∀ i ∈ l, IsItem i) ∧ e = [0xd2, 0x84] ++ l.flatten) :
    IsItem e := by
  obtain ⟨l, h4, hi, rfl⟩ := h
  exact .tag (h := [0xd2]) (.imm (m := 6) (v := 18) (by omega) (by omega))
    (.array (h := [0x84]) (.imm (m := 4) (v := 4) (by omega) (by omega)) h4 hi)

theorem Canonical.items {v : Voucher E} (w : Canonical c v) : ∀ i ∈ v.entries.contents, IsItem i :=
  fun i hi => isItem_form (w.form i hi)

/-- What is signed is written in shortest form. -/
theorem signRaw_form (L : CodecLaws E) {k : E.Priv} (hk : GoodKey E k) {payload raw : Bytes} (hsz : payload.length < 2 ^ 63)
    (h : signRaw E k payload = .ok raw) :
    ∃ l : List Bytes, l.length = 4 ∧ (∀ i ∈ l, IsItem i) ∧ raw = [0xd2, 0x84] ++ l.flatten := by
  obtain ⟨prot, sig, h1, h2, h3, _, _⟩ := hk payload hsz
  refine ⟨[E.encBytes prot, emptyMap, E.encBytes payload, E.encBytes sig], rfl, ?_, ?_⟩
  · intro i hi
    simp only [List.mem_cons, List.not_mem_nil, or_false] at hi
    rcases hi with rfl | rfl | rfl | rfl
    · exact L.bytes_item _ h2
    · exact isItem_emptyMap
    · exact L.bytes_item _ hsz
    · exact L.bytes_item _ h3
  · simp only [signRaw, h1, ofOpt_some, Res.bind_ok] at h
    have he : Cbor.serialize ⟨some 18, [E.encBytes prot, emptyMap, E.encBytes payload, E.encBytes sig]⟩ =
        .ok ([0xd2, 0x84] ++ [E.encBytes prot, emptyMap, E.encBytes payload, E.encBytes sig].flatten) := rfl
    rw [he] at h
    cases h
    rfl

/-- The entry added by `extend` is in shortest form. -/
theorem newEntry_form (L : CodecLaws E) {v : Voucher E} {k : E.Priv} (hk : GoodKey E k) {extra : Option E.Extra} {next : E.Pub}
    (hsmall : SmallPayload E extra next) {raw : Bytes} (h : newEntry c v k extra next = .ok raw) :
    ∃ l : List Bytes, l.length = 4 ∧ (∀ i ∈ l, IsItem i) ∧ raw = [0xd2, 0x84] ++ l.flatten := by
  unfold newEntry at h
  split at h
  · cases h
  obtain ⟨hi, h1, h⟩ := Res.bind_eq_ok.1 h
  obtain ⟨⟨last, owner⟩, h2, h⟩ := Res.bind_eq_ok.1 h
  obtain ⟨d, _, _, rfl⟩ := infoHash_ok.1 h1
  simp only at h
  split at h
  · cases h
  have hlast : ∃ t d, last = ⟨t, E.digest t d⟩ := by
    unfold currentOwner at h2
    split at h2
    · obtain ⟨x, h3, h4⟩ := Res.bind_eq_ok.1 h2
      cases h4
      obtain ⟨d, _, _, rfl⟩ := hdrHash_ok.1 h3
      exact ⟨_, _, rfl⟩
    · obtain ⟨x, h3, h4⟩ := Res.bind_eq_ok.1 h2
      obtain ⟨s, _, h4⟩ := Res.bind_eq_ok.1 h4
      obtain ⟨p, _, h4⟩ := Res.bind_eq_ok.1 h4
      cases h4
      exact ⟨_, _, (hashData_ok.1 h3).2⟩
  obtain ⟨t, d', rfl⟩ := hlast
  exact signRaw_form L hk (hsmall _ _ _ _) h

/-- One extension keeps the form. -/
theorem Canonical.extend (L : CodecLaws E) {v : Voucher E} (w : Canonical c v) (hn : v.entries.contents.length < 65535)
    {ps : List (Payload E)} (hv : verifyAll c v = .ok ps)
    {k : E.Priv} (hk : GoodKey E k) (hown : E.keyMatches (lastOwner v.header.mfgKey ps) k = true)
    {extra : Option E.Extra} {next : E.Pub} (hsmall : SmallPayload E extra next) :
    ∃ v' p, Voucher.extend c v k extra next = (v', .ok ()) ∧ Canonical c v' ∧ verifyAll c v' = .ok (ps ++ [p]) ∧
      p.publicKey = next ∧ v'.entries.contents.length = v.entries.contents.length + 1 ∧
      v'.header = v.header ∧ v'.hmac = v.hmac ∧ v'.chain = v.chain ∧
      ∀ i, i ≠ 4 → v'.contents.contents[i]? = v.contents.contents[i]? := by
  obtain ⟨v', raw, p, q1, q2, q3, q4, q5, q6, q7, q8, q9, q10, q11, q12, q13, q14, q15⟩ :=
    C06_extend_partial (c := c) L v w.written.wf w.untagged hn w.items ps hv k hk hown extra (by intro _; exact Nat.le_of_eq w.version.symm) next hsmall
  have hnew : newEntry c v k extra next = .ok raw := by
    have h := q1
    unfold Voucher.extend at h
    split at h
    · cases (Prod.mk.inj h).2
    · cases (Prod.mk.inj h).2
    · rename_i raw' hr
      simp only at h
      split at h
      · cases h
        rw [hr]
        exact congrArg Res.ok (List.cons.inj (List.append_cancel_left q6)).1
      · cases (Prod.mk.inj h).2
      · cases (Prod.mk.inj h).2
  have hform := newEntry_form L hk hsmall hnew
  have hitems : ∀ i ∈ v'.entries.contents, IsItem i := by
    rw [q6]
    intro i hi
    rcases List.mem_append.1 hi with hi | hi
    · exact w.items i hi
    · simp only [List.mem_singleton] at hi; subst hi; exact q7
  refine ⟨v', p, q1, ⟨rewritable_extend w.written q1 q15 q8 hitems (by rw [q6]; simp; omega) q13 q14, by rw [q12, w.version],
    by rw [q9, w.headerVersion], by rw [q9, w.guid], by rw [q9, w.key], by rw [q13 2 (by omega), q10, w.hmac], q8, ?_⟩,
    q2, q3, by rw [q6]; simp, q9, q10, q11, q13⟩
  rw [q6]
  intro i hi
  rcases List.mem_append.1 hi with hi | hi
  · exact w.form i hi
  · simp only [List.mem_singleton] at hi; subst hi; exact hform

/-- Extensions keep the form. -/
theorem Canonical.extendMany (L : CodecLaws E) (steps : List (Step E)) : ∀ {v : Voucher E} {ps : List (Payload E)},
    Canonical c v → v.entries.contents.length + steps.length ≤ 65535 → verifyAll c v = .ok ps →
    (∀ st ∈ steps, GoodKey E st.1 ∧ SmallPayload E st.2.1 st.2.2) → OwnerSteps (lastOwner v.header.mfgKey ps) steps →
    ∃ v' ps', Voucher.extendMany c v steps = (v', .ok ()) ∧ Canonical c v' ∧ verifyAll c v' = .ok (ps ++ ps') ∧
      ps'.map (·.publicKey) = steps.map (·.2.2) ∧
      v'.entries.contents.length = v.entries.contents.length + steps.length ∧
      v'.header = v.header ∧ v'.hmac = v.hmac ∧ v'.chain = v.chain ∧
      ∀ i, i ≠ 4 → v'.contents.contents[i]? = v.contents.contents[i]? := by
  induction steps with
  | nil =>
    intro v ps w _ hv _ _
    exact ⟨v, [], rfl, w, by simpa using hv, rfl, by simp, rfl, rfl, rfl, fun _ _ => rfl⟩
  | cons st steps ih =>
    intro v ps w hn hv hst ho
    obtain ⟨k, x, n⟩ := st
    obtain ⟨g1, g3⟩ := hst (k, x, n) (by simp)
    simp only [List.length_cons] at hn
    obtain ⟨v1, p, a1, a2, a3, a4, a5, a6, a7, a8, a9⟩ := w.extend L (by omega) hv g1 ho.1 g3
    obtain ⟨v', ps', b1, b2, b3, b4, b5, b6, b7, b8, b9⟩ := ih a2 (by omega) a3 (fun st h => hst st (by simp [h]))
      (by rw [lastOwner_append, a4]; exact ho.2)
    refine ⟨v', p :: ps', ?_, b2, by simpa using b3, by simp [a4, b4], by simp; omega, by rw [b6, a6], by rw [b7, a7],
      by rw [b8, a8], fun i hi => by rw [b9 i hi, a9 i hi]⟩
    simp only [Voucher.extendMany, a1, b1]

end Verif.Voucher
