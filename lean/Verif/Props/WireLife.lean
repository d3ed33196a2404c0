import Verif.Props.Wire
import Verif.Props.Life
import Verif.Props.Retry
import Verif.Props.Credential
import Verif.Props.OwnerTool
import Verif.Lemmas.WireCredential
import Verif.Spec.WireLife
/-!
Device credentials in their file (C86), and what this and C83 mean for a device's life.
-/
namespace Verif.Wire
open Verif Verif.Types Verif.Voucher Verif.Credential Verif.Fs

/-! ### C86 -/

/-- **C86**: a device credential is read as it was written. It has a version there is, a GUID of 16 bytes and rendezvous information with
variables there are (as its Rust type has it). -/
theorem C86_credential (c : Cred) (r : List (List (Nat × Bytes))) (hv : c.version = 100 ∨ c.version = 101) (hg : c.guid.length = 16)
    (hr : c.rvinfo = rvInfo.write r) (hx : ∀ d ∈ r, ∀ x ∈ d, x.1 < 15) (hl : c.rvinfo.length < 2 ^ 64)
    (hs : (credential.write c).length < 2 ^ 64) : credential.read (credential.write c) = some c :=
  credential_rw hv hg hr hx hl hs

/-- **C86**: whatever file is read as a credential, by whomever it was written: the credential is as above; written again it is read as
before, and so it is after a change of the active flag. -/
theorem C86_again (b : Bytes) (c : Cred) (h : credential.read b = some c) (hb : b.length < 2 ^ 64) :
    (c.version = 100 ∨ c.version = 101) ∧ c.guid.length = 16 ∧
    (∃ r, c.rvinfo = rvInfo.write r ∧ ∀ d ∈ r, ∀ x ∈ d, x.1 < 15) ∧
    ∀ a, (credential.write { c with active := a }).length < 2 ^ 64 →
      credential.read (credential.write { c with active := a }) = some { c with active := a } := by
  obtain ⟨h1, h2, r, h3, h4, h5⟩ := credential_back h
  exact ⟨h1, h2, ⟨r, h3, h4⟩, fun a hs => credential_rw (c := { c with active := a }) h1 h2 h3 h4 (Nat.lt_of_le_of_lt h5 hb) hs⟩

/-- **C86**: the active flag is one byte of the file, the second; nothing else depends on it. -/
theorem C86_flag (c : Cred) : ∃ rest, ∀ a, credential.write { c with active := a } = 0x87 :: (if a then 0xf5 else 0xf4) :: rest :=
  ⟨encList [.uint c.version, .text (String.ofList c.info), .bytes c.guid, (fromSlice c.rvinfo).getD .null, hash.ser c.keyHash,
    keyStorage.ser c.keys], fun a => by
      have h : head 4 7 = [0x87] := by decide +kernel
      simp only [Codec.write, credential, enc, List.length_cons, List.length_nil, Nat.reduceAdd, h, encList]
      rfl⟩

/-- **C86**: after a successful deactivation (C61) the file, in the form of data-formats, is read as the credential it was before, except
for the active flag. -/
theorem C86_deactivated (l : Location) (hl : l.policy = .deactivate) (t : Trace sig) (s s' : Files)
    (h : Prog.Ends (deactivate credentialCodec l) t (.ok ())) (hr : Run s t s') :
    ∃ old c new, s l.path = some old ∧ credential.read old = some c ∧ s' l.path = some new ∧
      (old.length < 2 ^ 63 → new.length < 2 ^ 63 → credential.read new = some { c with active := false }) := by
  have hC : ∀ b c, b.length < 2 ^ 63 → credentialCodec.dec b = some c → (credentialCodec.enc { c with active := false }).length < 2 ^ 63 →
      credentialCodec.dec (credentialCodec.enc { c with active := false }) = some { c with active := false } :=
    fun b c hb hd hs => (C86_again b c hd (by omega)).2.2.2 false (Nat.lt_trans hs (by decide))
  obtain ⟨old, c, new, h1, h2, h3, h4⟩ := (C61_deactivated credentialCodec hC l t s s' h hr).2 hl
  refine ⟨old, c, new, h1, h2, h3, fun ho hn => ?_⟩
  obtain ⟨c', h5, h6, h7, h8, h9, h10, h11, h12⟩ := h4 ho hn
  rw [show credential.read new = some c' from h5]
  obtain ⟨a', v', i', g', r', k', s'⟩ := c'
  simp only at h6 h7 h8 h9 h10 h11 h12
  simp only [h6, h7, h8, h9, h10, h11, h12]

/-- The assumption about credentials in C67 holds: the owner tool's credential is read as it was written. -/
theorem C86_tool {T : OwnerTool.Tool} {F : Forms T.E} (S : SpeaksVoucher T.E F) (L : F.Laws) (hT : T.codec = credentialCodec)
    (rv : T.E.Rv) (hrv : (T.E.encRv rv).length < 2 ^ 64) (cr : Cred) (h1 : cr.version = 101) (h2 : cr.guid.length = 16)
    (h3 : cr.rvinfo = T.E.encRv rv) (hs : (T.codec.enc cr).length < 2 ^ 64) : T.codec.dec (T.codec.enc cr) = some cr := by
  rw [hT] at hs ⊢
  refine credential_rw (r := F.rv rv) (.inr h1) h2 (by rw [h3, S.encRv]) (L.vars rv) (by rw [h3]; exact hrv) hs

/-! ### A device's life -/

section
variable {R : Life.Whole} {F : Forms R.E} {mcfg : MfgServer.Config R.mfg} {cfg : OwnerServer.Config R.toOwnerEnv}
    {rcfg : RvServer.Config R.toRvEnv} {N : To0.Msgs} {A : Http.Aead} {encM : MfgServer.Resp → Bytes} {encR : RvServer.Resp → Bytes}
    {encO : OwnerServer.Resp → Bytes}

theorem payload_small (S : SpeaksVoucher R.E F) (L : F.Laws) (hd : ∀ t d, (R.E.digest t d).length ≤ 64) (o : R.E.Pub) : SmallPayload R.E none o := by
  intro t d t' d'
  have h1 := enc_arr_le [hash.ser ⟨t, R.E.digest t d⟩, hash.ser ⟨t', R.E.digest t' d'⟩, .null, publicKey.ser (F.pub o)]
  have h2 := hash_le ⟨t, R.E.digest t d⟩
  have h3 := hash_le ⟨t', R.E.digest t' d'⟩
  have h4 := publicKey_le (F.pub o)
  have h5 := L.size o
  have h6 := hd t d
  have h7 := hd t' d'
  simp only [encList, List.length_append, List.length_nil] at h1
  rw [S.encPayload]
  simp only [Codec.write, payload, Forms.payload, Option.map_none, Codec.opt]
  have h8 : (enc .null).length = 1 := rfl
  simp only at h2 h3
  omega

/-- **C83**, **C86**: if the parties of a device's life speak the forms of data-formats, and what they use besides works, all that is assumed
about them for the whole way (C78, C79) holds. -/
theorem C83_life (S : Speaks R F N encM encR encO) (L : F.Laws) (X : Works mcfg cfg rcfg A) :
    Life.Laws mcfg cfg rcfg N A encM encR encO where
  mfg := ⟨(C83_voucher_partial S.voucher L).1, (C83_voucher_partial S.voucher L).2, X.chain, X.built, X.signing,
    fun o _ => payload_small S.voucher L X.short o⟩
  wireM := C83_mfg L S.mfg X.nonces
  kex := X.kex
  agree := X.agree
  secures := X.secures
  digests := X.digests
  credential cr h hs := by
    obtain ⟨rv, h1, h2⟩ := h.rv
    rw [S.credential] at hs ⊢
    exact credential_rw (r := F.rv rv) h.version h.guid (by rw [h1, S.voucher.encRv]) (L.vars rv) (by omega)
      (Nat.lt_trans hs (by decide))
  trust := X.trust
  wire0 := C83_to0 S.to0
  wire1 := C83_to1 S.to1
  wire2 := C83_to2 S.voucher L S.to2
  keys := X.keys
  redirects := X.redirects
  period := X.period
  rv := X.rv

end

end Verif.Wire
