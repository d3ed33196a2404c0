import Verif.Model.ErrorsRv
import Verif.Props.Errors
import Verif.Spec.Protocol
import Verif.Lemmas.RvServer
import Verif.Lemmas.Onboard
/-!
**C95**: the reason a client is given for a refusal is the true one.
-/
namespace Verif.Errors
open Verif Verif.Http
open Verif.RvServer hiding handle hello server move reached

/-! ### Specification: the request filter -/

section filter
variable {Sv : Server}

/-- The session of a request: the stored one its token names, or a new one if it has no token or names no stored session. -/
def Found (σ : St Sv) (rq : Request Sv) (s : Sess Sv) : Prop :=
  (∃ hdr i, rq.auth = some hdr ∧ Sv.idOf (bearer hdr) = some i ∧ σ.sessions i = some s) ∨
  s = Sess.new Sv ∧ (rq.auth = none ∨ ∃ hdr i, rq.auth = some hdr ∧ Sv.idOf (bearer hdr) = some i ∧ σ.sessions i = none)

/-- What must be the case for a reason which the request filter gives before the handler is called. -/
inductive Cause (σ : St Sv) (rq : Request Sv) : Rejection → Prop
  | path : (∀ om, (rq.type, om) ∉ Sv.routes) → Cause σ rq .notFound
  | http : 16384 < rq.body.length ∨ rq.cborContent = false → Cause σ rq .other
  | session : (∃ hdr, rq.auth = some hdr ∧ Sv.idOf (bearer hdr) = none) ∨ Sv.idOf rq.freshCookie = none →
      Cause σ rq (.own 500 rq.type "Error retrieving session")
  | sequence (s : Sess Sv) : Found σ rq s → (∀ om, (s.last, rq.type, om) ∉ Spec.protocol) →
      Cause σ rq (.own 500 rq.type "Message sequence error")
  | encryption (s : Sess Sv) : Found σ rq s → rq.type ∈ Spec.secret ∧ s.keys = none ∨ rq.type ∈ Spec.clear ∧ s.keys ≠ none →
      Cause σ rq (.own 500 rq.type "IM encryption requirement not met")
  | decrypt (s : Sess Sv) (k : Keys) : Found σ rq s → s.keys = some k → Sv.aead.decrypt k.sevk rq.body = none →
      Cause σ rq (.own 101 rq.type "Error decrypting")
  | parse (s : Sess Sv) (plain : Bytes) : Found σ rq s →
      s.keys = none ∧ plain = rq.body ∨ (∃ k, s.keys = some k ∧ Sv.aead.decrypt k.sevk rq.body = some plain) →
      Sv.decode rq.type plain = none → Cause σ rq .parse

/-- What must be the case for a reason which the request filter gives after the handler has answered. -/
inductive After (rq : Request Sv) (om : MsgType) (resp : Sv.Resp) (keys : Option Keys) : Rejection → Prop
  | store : rq.storeOk = false → After rq om resp keys (.own 500 rq.type "Error storing session")
  | open_ : om ∈ Spec.secret → keys = none → After rq om resp keys (.own 101 rq.type "Sequence error: must be encrypted")
  | closed : om ∈ Spec.clear → keys ≠ none → After rq om resp keys (.own 101 rq.type "Sequence error: must not be encrypted")
  | encrypt (k : Keys) : keys = some k → Sv.aead.encrypt k.sevk rq.iv (Sv.encode resp) = none →
      After rq om resp keys (.own 101 rq.type "Error encrypting")

theorem found_of {σ : St Sv} {rq : Request Sv} {i : Sv.Id} {s : Sess Sv} {ck : Option (List Char)}
    (h : findSession σ rq = some (i, s, ck)) : Found σ rq s := by
  have fresh : (Sv.idOf rq.freshCookie).map (fun i => (i, Sess.new Sv, some rq.freshCookie)) = some (i, s, ck) → s = Sess.new Sv := by
    intro h
    cases hc : Sv.idOf rq.freshCookie with
    | none => rw [hc] at h; cases h
    | some j => rw [hc] at h; cases h; rfl
  unfold findSession at h
  cases ha : rq.auth with
  | none => rw [ha] at h; exact .inr ⟨fresh h, .inl ha⟩
  | some hdr =>
    rw [ha] at h
    simp only at h
    cases hi : Sv.idOf (bearer hdr) with
    | none => rw [hi] at h; cases h
    | some j =>
      rw [hi] at h
      simp only at h
      cases hs : σ.sessions j with
      | none => rw [hs] at h; exact .inr ⟨fresh h, .inr ⟨hdr, _, ha, hi, hs⟩⟩
      | some s' =>
        rw [hs] at h
        cases h
        exact .inl ⟨hdr, _, ha, hi, hs⟩

theorem not_found {σ : St Sv} {rq : Request Sv} (h : findSession σ rq = none) :
    (∃ hdr, rq.auth = some hdr ∧ Sv.idOf (bearer hdr) = none) ∨ Sv.idOf rq.freshCookie = none := by
  unfold findSession at h
  cases ha : rq.auth with
  | none => rw [ha] at h; exact .inr (Option.map_eq_none_iff.1 h)
  | some hdr =>
    rw [ha] at h
    simp only at h
    cases hi : Sv.idOf (bearer hdr) with
    | none => exact .inl ⟨hdr, rfl, hi⟩
    | some j =>
      rw [hi] at h
      simp only at h
      cases hs : σ.sessions j with
      | none => rw [hs] at h; exact .inr (Option.map_eq_none_iff.1 h)
      | some s' => rw [hs] at h; cases h

theorem protocol_prev : ∀ x ∈ Spec.protocol, x.2.1.validPrev x.1 = true := by decide

theorem enc_false {t : MsgType} {k : Option Keys} (h : encOk t k = false) :
    t ∈ Spec.secret ∧ k = none ∨ t ∈ Spec.clear ∧ k ≠ none := by
  unfold encOk at h
  cases k with
  | none => left; cases t <;> first | exact ⟨by decide, rfl⟩ | cases h
  | some k => right; cases t <;> first | exact ⟨by decide, nofun⟩ | cases h

theorem route_none {routes : List (MsgType × MsgType)} {t : MsgType} (h : routeOf routes t = none) : ∀ om, (t, om) ∉ routes := by
  intro om hm
  unfold routeOf at h
  have := List.find?_eq_none.1 (Option.map_eq_none_iff.1 h) _ hm
  simp at this

/-- **C95**, the request filter: each of its reasons is true of the request. -/
theorem C95_filter {σ : St Sv} {rq : Request Sv} {handler x : Rejection} (ha : accept σ rq = none) (h : why σ rq handler = some x) :
    Cause σ rq x := by
  unfold why at h
  rw [ha] at h
  simp only at h
  unfold acceptWhy at h
  split at h
  · rename_i hr
    cases h
    exact .path (route_none hr)
  split at h
  · rename_i hb
    cases h
    exact .http (.inl hb)
  split at h
  · rename_i hb
    cases h
    exact .http (.inr (by simpa using hb))
  split at h
  · rename_i hs
    cases h
    exact .session (not_found hs)
  rename_i i s ck hs
  have hf := found_of hs
  unfold parseWhy at h
  split at h
  · rename_i hp
    cases h
    refine .sequence s hf fun om hm => ?_
    rw [protocol_prev _ hm] at hp
    cases hp
  split at h
  · rename_i he
    cases h
    exact .encryption s hf (enc_false (by simpa using he))
  split at h
  · rename_i hd
    cases h
    unfold decryptWith at hd
    split at hd
    · cases hd
    · rename_i k hk
      exact .decrypt s k hf hk hd
  rename_i plain hd
  split at h
  · rename_i hdec
    cases h
    refine .parse s plain hf ?_ hdec
    unfold decryptWith at hd
    split at hd
    · rename_i hk
      cases hd
      exact .inl ⟨hk, rfl⟩
    · rename_i k hk
      exact .inr ⟨k, hk, hd⟩
  · cases h

/-- **C95**, after the handler: either the handler gave the reason, or it is true of the response. -/
theorem C95_after {σ : St Sv} {rq : Request Sv} {a : Accepted Sv} {handler x : Rejection} (ha : accept σ rq = some a)
    (h : why σ rq handler = some x) :
    (Sv.handle rq.oracle rq.type a.req a.sess.data a.sess.keys σ.world).2 = none ∧ x = handler ∨
    ∃ resp data keys, (Sv.handle rq.oracle rq.type a.req a.sess.data a.sess.keys σ.world).2 = some (resp, data, keys) ∧
      After rq a.om resp keys x := by
  unfold why at h
  rw [ha] at h
  simp only at h
  generalize Sv.handle rq.oracle rq.type a.req a.sess.data a.sess.keys σ.world = q at h ⊢
  obtain ⟨w, q⟩ := q
  cases q with
  | none => cases h; exact .inl ⟨rfl, rfl⟩
  | some y =>
    obtain ⟨resp, data, keys⟩ := y
    right
    refine ⟨resp, data, keys, rfl, ?_⟩
    simp only at h
    split at h
    · rename_i hs
      cases h
      exact .store (by simpa using hs)
    unfold respondWhy at h
    split at h
    · rename_i he
      cases h
      rcases enc_false (t := a.om) (k := keys) (by simpa using he) with ⟨h1, rfl⟩ | ⟨h1, h2⟩
      · exact .open_ h1 rfl
      · cases keys with
        | none => exact absurd rfl h2
        | some k => exact .closed h1 nofun
    split at h
    · rename_i he
      cases h
      unfold encryptWith at he
      split at he
      · cases he
      · exact .encrypt _ rfl he
    · cases h

end filter

/-! ### Specification: the rendezvous server -/

section rv
variable (R : RvEnv) (c : Bool) (B : Backend (Item R)) (cfg : Config R)

/-- The voucher has entries, and they form a chain of signatures from the manufacturer to this owner. -/
def OwnedBy (v : Voucher.Voucher R.E) (k : R.E.Pub) : Prop :=
  ∃ hdr info ps, Voucher.hdrBytes v = .ok hdr ∧ v.header.infoBytes R.E = .ok info ∧
    Voucher.SignChain R.E c info v.header.mfgKey hdr v.entries.contents ps ∧ ps ≠ [] ∧ Voucher.lastOwner v.header.mfgKey ps = k

/-- The redirect blob is signed by a key, and can be read; it contains this hash. -/
def BlobOf (to1d : Bytes) (k : R.E.Pub) (h : Hash) : Prop :=
  ∃ s, Voucher.parseSign1 R.E c to1d = .ok s ∧ R.E.verify k s.prot s.payload s.sig = true ∧ R.decTo1 s.payload = some h

/-- From the first certificate of a chain, each is issued and signed by the next up to one that is trusted, not the first. -/
def PathTo (ch : R.E.Chain) : Prop :=
  ∃ leaf seg root rest, R.certs ch = leaf :: (seg ++ root :: rest) ∧
    List.IsChain (fun a b => Rendezvous.Signs R.C b a) (leaf :: (seg ++ [root])) ∧
    ∀ bag, cfg.deviceKeys = some bag → ∃ x ∈ bag, R.certDigest root = R.certDigest x

/-- What must be the case when TO0.OwnerSign is refused for a reason. -/
inductive OwnerCause (s : Data) (to0d to1d : Bytes) : Nat × String → Prop
  | sequence : s.nonce3 = none → OwnerCause s to0d to1d (101, "Request sequence failure")
  | nonce (t : To0d R) (n : Bytes) : parseTo0d R c to0d = .ok t → s.nonce3.bind parseNonce = some n → t.nonce ≠ n →
      OwnerCause s to0d to1d (101, "Invalid nonce3")
  | manufacturer (t : To0d R) (bag : List R.C.Cert) : parseTo0d R c to0d = .ok t → cfg.mfgKeys = some bag →
      (∀ cert ∈ bag, ∀ k, R.C.publicKey cert = some k → R.sameKey t.voucher.header.mfgKey k = false) →
      OwnerCause s to0d to1d (2, "Ownership voucher manufacturer not trusted")
  | voucher (t : To0d R) : parseTo0d R c to0d = .ok t → (∀ k, ¬ OwnedBy R c t.voucher k) → OwnerCause s to0d to1d (2, "Invalid OV")
  | blob (t : To0d R) (k : R.E.Pub) : parseTo0d R c to0d = .ok t → OwnedBy R c t.voucher k → (∀ h, ¬ BlobOf R c to1d k h) →
      OwnerCause s to0d to1d (2, "Invalid TO1D")
  | noChain (t : To0d R) : parseTo0d R c to0d = .ok t → t.voucher.chain = none → OwnerCause s to0d to1d (2, "No device certificate")
  | device (t : To0d R) (ch : R.E.Chain) : parseTo0d R c to0d = .ok t → t.voucher.chain = some ch → ¬ PathTo R cfg ch →
      OwnerCause s to0d to1d (2, "Device certificate not trusted")
  | unreadable : (∀ t, parseTo0d R c to0d ≠ .ok t) → OwnerCause s to0d to1d (500, "Internal server error")
  | commitment (t : To0d R) (k : R.E.Pub) (h : Hash) : parseTo0d R c to0d = .ok t → OwnedBy R c t.voucher k → BlobOf R c to1d k h →
      ¬ Voucher.Commits R.E h to0d → OwnerCause s to0d to1d (500, "Internal server error")
  | key (t : To0d R) (ch : R.E.Chain) (leaf : R.C.Cert) : parseTo0d R c to0d = .ok t → t.voucher.chain = some ch →
      (R.certs ch).head? = some leaf → R.certPub leaf = none → OwnerCause s to0d to1d (500, "Internal server error")
  | server (t : To0d R) (n : Bytes) (item : Item R) : s.nonce3.bind parseNonce = some n →
      Authentic R c cfg n to0d to1d t.voucher.header.guid t item → OwnerCause s to0d to1d (500, "Internal server error")

/-- What must be the case when a request is refused by a handler of the rendezvous server, for a reason: code and text. -/
inductive RvCause (o : Oracle) (s : Data) (w : B.W) : Req → Nat × String → Prop
  | hello : o.nonce = none → RvCause o s w .hello (500, "Internal server error")
  | owner (to0d to1d : Bytes) (x : Nat × String) : OwnerCause R c cfg s to0d to1d x → RvCause o s w (.ownerSign to0d to1d) x
  | scheme (g info : Bytes) : RvCause o s w (.helloRv g false info) (101, "Unsupported signature scheme")
  | info (g info : Bytes) (sigOk : Bool) : info ≠ [] → RvCause o s w (.helloRv g sigOk info) (101, "Unsupported signature info")
  | unknown (g info : Bytes) (sigOk : Bool) : (B.load o.now w (Store.guidText g)).2 = .ok none →
      RvCause o s w (.helloRv g sigOk info) (6, "Device GUID not found")
  | rvServer (g info : Bytes) (sigOk : Bool) : (∃ e, (B.load o.now w (Store.guidText g)).2 = .err e) ∨ o.nonce = none →
      RvCause o s w (.helloRv g sigOk info) (500, "Internal server error")
  | sequence (token : Bytes) : s.nonce4 = none ∨ s.guid = none ∨
        (∃ g e, s.guid.bind parseGuid = some g ∧ (B.load o.now w (Store.guidText g)).2 = .err e) →
      RvCause o s w (.prove token) (101, "Request sequence failure")
  | gone (token g : Bytes) : s.guid.bind parseGuid = some g → (B.load o.now w (Store.guidText g)).2 = .ok none →
      RvCause o s w (.prove token) (6, "Device not found")
  | token (token g : Bytes) (item : Item R) : s.guid.bind parseGuid = some g → (B.load o.now w (Store.guidText g)).2 = .ok (some item) →
      (∀ eat, getEat R c token item.key ≠ .ok eat) → RvCause o s w (.prove token) (101, "Token invalid")
  | nonce (token n g m : Bytes) (item : Item R) : s.nonce4.bind parseNonce = some n → s.guid.bind parseGuid = some g →
      (B.load o.now w (Store.guidText g)).2 = .ok (some item) → SignedToken R c token item.key m → m ≠ n →
      RvCause o s w (.prove token) (101, "Nonce invalid")

end rv

/-! ### The model of errors belongs to that of the handlers -/

section rv
variable {R : RvEnv} {c : Bool} {B : Backend (Item R)} {cfg : Config R} {o : Oracle} {s : Data} {w : B.W}

theorem register_why {r : Registration R} : (register R B o r w).2.isSome = true ↔ registerWhy R B o r w = some none := by
  unfold register registerWhy
  cases guidKey r.guid with
  | none => simp
  | some k =>
    simp only
    rcases B.put w k r.item with ⟨w', q⟩
    cases q with
    | ok u =>
      simp only
      split
      · simp
      · rcases B.setTtl o.now w' k _ with ⟨w'', q⟩
        cases q <;> simp
    | err e => simp
    | panic => simp

theorem ownersign_why {to0d to1d : Bytes} :
    (ownersign R c B cfg o to0d to1d s w).2.isSome = true ↔ ownersignWhy R c B cfg o to0d to1d s w = some none := by
  unfold ownersign ownersignWhy
  cases s.nonce3 with
  | none => simp
  | some text =>
    simp only [Option.bind_some]
    cases hn : parseNonce text with
    | none =>
      simp only [Option.isSome_none, Bool.false_eq_true, false_iff]
      cases parseTo0d R c to0d <;> simp
    | some n =>
      simp only
      unfold checkOwnerSign
      cases ht : parseTo0d R c to0d with
      | err e => simp
      | panic => simp
      | ok t =>
        simp only [Res.bind_ok]
        by_cases hne : n ≠ t.nonce
        · simp [if_pos hne]
        rw [if_neg hne, if_neg hne]
        cases hm : mfgTrusted R cfg t.voucher.header.mfgKey with
        | err e => simp
        | panic => simp
        | ok u =>
          simp only [Res.bind_ok]
          cases ho : ownerOf c t.voucher with
          | err e => simp
          | panic => simp
          | ok owner =>
            simp only [Res.bind_ok]
            unfold blobWhy
            cases hh : to1Hash R c to1d owner with
            | err e => simp
            | panic => simp
            | ok h =>
              simp only [Res.bind_ok]
              cases hc : checkTo0Hash R h to0d with
              | err e => simp
              | panic => simp
              | ok u =>
                simp only [Res.bind_ok]
                unfold deviceKey deviceWhy
                cases t.voucher.chain with
                | none => simp
                | some ch =>
                  simp only
                  cases verifyDevice R cfg ch with
                  | err e => simp
                  | panic => simp
                  | ok leaf =>
                    simp only
                    cases R.certPub leaf with
                    | none => simp [ofOpt]
                    | some k =>
                      rw [← register_why]
                      simp only [ofOpt, Res.bind_ok]
                      show (match register R B o _ w with | (w, some wait) => (w, some _) | (w, none) => (w, none)).2.isSome = true ↔ _
                      rcases register R B o _ w with ⟨w', q⟩
                      cases q <;> simp


theorem hello_why : (RvServer.hello o s).isSome = true ↔ helloWhy o = some none := by
  unfold RvServer.hello helloWhy
  cases o.nonce <;> simp

theorem helloRv_why {g info : Bytes} {sigOk : Bool} :
    (helloRv R B o g sigOk info s w).2.isSome = true ↔ helloRvWhy R B o g sigOk info w = some none := by
  unfold helloRv helloRvWhy
  cases sigOk with
  | false => simp
  | true =>
    cases info with
    | cons a b => simp
    | nil =>
      simp only [Bool.not_true, List.isEmpty_nil, Bool.or_self, Bool.false_eq_true, if_false]
      cases guidKey g with
      | none => simp
      | some k =>
        simp only
        rcases B.load o.now w k with ⟨w', q⟩
        cases q with
        | err e => simp
        | panic => simp
        | ok v =>
          cases v with
          | none => simp
          | some v => cases o.nonce <;> simp

theorem prove_why {token : Bytes} :
    (proveToRv R c B o token s w).2.isSome = true ↔ proveToRvWhy R c B o token s w = some none := by
  unfold proveToRv proveToRvWhy
  cases s.nonce4 with
  | none => simp
  | some text =>
    simp only [Option.bind_some]
    cases parseNonce text with
    | none => simp
    | some n =>
      cases s.guid with
      | none => simp
      | some g =>
        simp only [Option.bind_some]
        cases parseGuid g with
        | none => simp
        | some g =>
          simp only
          rcases B.load o.now w (Store.guidText g) with ⟨w', q⟩
          cases q with
          | err e => simp
          | panic => simp
          | ok v =>
            cases v with
            | none => simp
            | some item =>
              simp only
              cases getEat R c token item.key with
              | err e => simp
              | panic => simp
              | ok eat =>
                simp only
                split <;> simp

/-- The rendezvous server answers just if there is no reason not to. -/
theorem rv_why {r : Req} : (RvServer.handle R c B cfg o r s w).2.isSome = true ↔ rvWhy R c B cfg o r s w = some none := by
  cases r with
  | hello => exact hello_why
  | ownerSign a b => exact ownersign_why
  | helloRv g k i => exact helloRv_why
  | prove t => exact prove_why

/-! ### The reasons are true -/

theorem bag_false {bag : List R.C.Cert} {k : R.E.Pub} (h : bagHasKey R bag k = .ok false) :
    ∀ cert ∈ bag, ∀ ck, R.C.publicKey cert = some ck → R.sameKey k ck = false := by
  induction bag with
  | nil => exact nofun
  | cons x r ih =>
    unfold bagHasKey at h
    split at h
    · cases h
    rename_i ck hck
    split at h
    · cases h
    rename_i hs
    intro cert hc k' hk'
    rcases List.mem_cons.1 hc with rfl | hc
    · rw [hck] at hk'
      cases hk'
      simpa using hs
    · exact ih h cert hc k' hk'

theorem bag_err {bag : List R.C.Cert} {k : R.E.Pub} {e : Err} : bagHasKey R bag k ≠ .err e := by
  induction bag with
  | nil => exact nofun
  | cons x r ih =>
    unfold bagHasKey
    split
    · exact nofun
    · split
      · exact nofun
      · exact ih

theorem mfg_err {k : R.E.Pub} {e : Err} (h : mfgTrusted R cfg k = .err e) :
    ∃ bag, cfg.mfgKeys = some bag ∧ ∀ cert ∈ bag, ∀ ck, R.C.publicKey cert = some ck → R.sameKey k ck = false := by
  unfold mfgTrusted at h
  split at h
  · cases h
  rename_i bag hb
  refine ⟨bag, hb, ?_⟩
  split at h
  · cases h
  · rename_i hk; exact bag_false hk
  · rename_i hk; exact absurd hk bag_err
  · cases h

theorem owned_iff {to0d : Bytes} {t : To0d R} (ht : parseTo0d R c to0d = .ok t) {k : R.E.Pub} :
    ownerOf c t.voucher = .ok k ↔ OwnedBy R c t.voucher k := by
  constructor
  · intro h
    obtain ⟨hdr, ps, h1, h2, h3, h4, h5⟩ := ownerOf_ok (parseTo0d_wf ht) h
    exact ⟨hdr, _, ps, h1, h2, h3, h4, h5⟩
  · rintro ⟨hdr, info, ps, h1, h2, h3, h4, rfl⟩
    exact Device.ownerOf_chain h2 h1 h3 h4

theorem device_err {ch : R.E.Chain} (h : ∀ x, verifyDevice R cfg ch ≠ .ok x) : ¬ PathTo R cfg ch := by
  rintro ⟨leaf, seg, root, rest, h1, h2, h3⟩
  unfold verifyDevice at h
  rw [h1] at h
  split at h
  · rename_i bag hb
    obtain ⟨x, hx, hd⟩ := h3 bag hb
    refine h leaf (Rendezvous.C19_path_accepted (fun c => decide (R.certDigest c ∈ bag.map R.certDigest)) leaf root seg rest ?_ h2)
    exact decide_eq_true (by rw [hd]; exact List.mem_map_of_mem hx)
  · exact h leaf (Rendezvous.C19_path_accepted (fun _ => true) leaf root seg rest rfl h2)

theorem register_cause {r : Registration R} {x : Rejection} (h : registerWhy R B o r w = some (some x)) : x = fromError .to0OwnerSign := by
  unfold registerWhy at h
  split at h
  · cases h
  · split at h
    · cases h
    · cases h; rfl
    · split at h
      · cases h; rfl
      · split at h
        · cases h
        · cases h; rfl
        · cases h

theorem leaf_head {ch : R.E.Chain} {leaf : R.C.Cert} (h : verifyDevice R cfg ch = .ok leaf) : (R.certs ch).head? = some leaf := by
  unfold verifyDevice at h
  split at h
  · obtain ⟨seg, root, rest, h1, h2, _⟩ := Rendezvous.C19_bag _ _ _ _ h
    exact h2
  · obtain ⟨seg, root, rest, h1, h2, _⟩ := Rendezvous.C19_path_to_root _ _ _ h
    exact h2

/-- **C95**, registrations: each reason for refusing one is true, and names the message. -/
theorem C95_registration {to0d to1d : Bytes} {x : Rejection} (h : ownersignWhy R c B cfg o to0d to1d s w = some (some x)) :
    ∃ code text, x = .own code .to0OwnerSign text ∧ OwnerCause R c cfg s to0d to1d (code, text) := by
  unfold ownersignWhy at h
  split at h
  · rename_i hn
    cases h
    exact ⟨_, _, rfl, .sequence hn⟩
  rename_i text hn
  split at h
  · cases h
  · rename_i e ht
    cases h
    exact ⟨_, _, rfl, .unreadable (by rw [ht]; exact nofun)⟩
  rename_i t ht
  split at h
  · cases h
  rename_i n hp
  have hb : s.nonce3.bind parseNonce = some n := by rw [hn]; exact hp
  split at h
  · rename_i hne
    cases h
    exact ⟨_, _, rfl, .nonce t n ht hb (Ne.symm hne)⟩
  rename_i hne
  split at h
  · cases h
  · rename_i hm
    cases h
    obtain ⟨bag, h1, h2⟩ := mfg_err hm
    exact ⟨_, _, rfl, .manufacturer t bag ht h1 h2⟩
  rename_i hm
  split at h
  · cases h
  · rename_i ho
    cases h
    exact ⟨_, _, rfl, .voucher t ht fun k hk => by rw [(owned_iff ht).2 hk] at ho; cases ho⟩
  rename_i owner ho
  have how := (owned_iff ht).1 ho
  unfold blobWhy at h
  split at h
  · cases h
  · rename_i hh
    cases h
    exact ⟨_, _, rfl, .blob t owner ht how fun hash hk => by rw [to1Hash_ok.2 hk] at hh; cases hh⟩
  rename_i hash hh
  have hbl : BlobOf R c to1d owner hash := to1Hash_ok.1 hh
  split at h
  · cases h
  · rename_i hc
    cases h
    exact ⟨_, _, rfl, .commitment t owner hash ht how hbl fun hk => by rw [checkTo0Hash_ok.2 hk] at hc; cases hc⟩
  rename_i hc
  unfold deviceWhy at h
  split at h
  · rename_i hch
    cases h
    exact ⟨_, _, rfl, .noChain t ht hch⟩
  rename_i ch hch
  split at h
  · cases h
  · rename_i hv
    cases h
    exact ⟨_, _, rfl, .device t ch ht hch (device_err (by rw [hv]; exact nofun))⟩
  rename_i leaf hv
  split at h
  · rename_i hk
    cases h
    exact ⟨_, _, rfl, .key t ch leaf ht hch (leaf_head hv) hk⟩
  rename_i k hk
  have hx := register_cause h
  subst hx
  have hok : checkOwnerSign R c cfg n to0d to1d =
      .ok ⟨t.voucher.header.guid, ⟨k, to1d⟩, if t.wait > cfg.maxWait then cfg.maxWait else t.wait⟩ := by
    unfold checkOwnerSign
    rw [ht, Res.bind_ok, if_neg hne, hm, Res.bind_ok, ho, Res.bind_ok, hh, Res.bind_ok, hc, Res.bind_ok]
    unfold deviceKey
    rw [hch]
    simp only [hv, hk, ofOpt, Res.bind_ok]
    rfl
  obtain ⟨t', ha, _⟩ := checkOwnerSign_ok hok
  have : t' = t := by
    have := ha.read
    rw [ht] at this
    cases this
    rfl
  subst this
  exact ⟨_, _, rfl, .server t' n ⟨k, to1d⟩ hb ha⟩

/-- **C95**, the rendezvous server: each reason its handlers give is true. -/
theorem C95_rendezvous_partial {r : Req} {x : Rejection} (h : rvWhy R c B cfg o r s w = some (some x)) :
    ∃ code t text, x = .own code t text ∧ RvCause R c B cfg o s w r (code, text) := by
  cases r with
  | hello =>
    unfold rvWhy helloWhy at h
    simp only at h
    split at h
    · rename_i hn
      cases h
      exact ⟨_, _, _, rfl, .hello hn⟩
    · cases h
  | ownerSign a b =>
    obtain ⟨code, text, h1, h2⟩ := C95_registration (show ownersignWhy R c B cfg o a b s w = _ from h)
    exact ⟨code, _, text, h1, .owner a b _ h2⟩
  | helloRv g k i =>
    replace h : helloRvWhy R B o g k i w = _ := h
    unfold helloRvWhy at h
    split at h
    · rename_i hk
      cases h
      cases k with
      | true => cases hk
      | false => exact ⟨_, _, _, rfl, .scheme g i⟩
    split at h
    · rename_i hi
      cases h
      exact ⟨_, _, _, rfl, .info g i k (by rintro rfl; cases hi)⟩
    split at h
    · cases h
    rename_i q hq
    unfold guidKey at hq
    split at hq
    · cases hq
      split at h
      · cases h
      · rename_i e he
        cases h
        exact ⟨_, _, _, rfl, .rvServer g i k (.inl ⟨e, he⟩)⟩
      · rename_i he
        cases h
        exact ⟨_, _, _, rfl, .unknown g i k he⟩
      · split at h
        · rename_i hn
          cases h
          exact ⟨_, _, _, rfl, .rvServer g i k (.inr hn)⟩
        · cases h
    · cases hq
  | prove token =>
    replace h : proveToRvWhy R c B o token s w = _ := h
    unfold proveToRvWhy at h
    split at h
    · rename_i hn
      cases h
      exact ⟨_, _, _, rfl, .sequence token (.inl hn)⟩
    rename_i text hn
    split at h
    · cases h
    rename_i n hp
    split at h
    · rename_i hg
      cases h
      exact ⟨_, _, _, rfl, .sequence token (.inr (.inl hg))⟩
    rename_i g hg
    split at h
    · cases h
    rename_i g' hpg
    have hgg : s.guid.bind parseGuid = some g' := by rw [hg]; exact hpg
    split at h
    · cases h
    · rename_i e he
      cases h
      exact ⟨_, _, _, rfl, .sequence token (.inr (.inr ⟨g', e, hgg, he⟩))⟩
    · rename_i he
      cases h
      exact ⟨_, _, _, rfl, .gone token g' hgg he⟩
    · rename_i item he
      split at h
      · cases h
      · rename_i hh
        cases h
        exact ⟨_, _, _, rfl, .token token g' item hgg he (by rw [hh]; exact nofun)⟩
      · rename_i eat hh
        split at h
        · rename_i hne
          cases h
          exact ⟨_, _, _, rfl, .nonce token n g' eat.nonce item (by rw [hn]; exact hp) hgg he (getEat_ok hh) (Ne.symm hne)⟩
        · cases h

/-- **C95**: a registration that is refused for a reason other than an error of the server leaves the store as it was. -/
theorem C95_nothing_stored {to0d to1d : Bytes} {x : Rejection} (h : ownersignWhy R c B cfg o to0d to1d s w = some (some x))
    (hx : x ≠ fromError .to0OwnerSign) : (ownersign R c B cfg o to0d to1d s w).1 = w := by
  unfold ownersign
  split
  · rfl
  rename_i n hn
  split
  · rename_i r hr
    exfalso
    have hw : ownersignWhy R c B cfg o to0d to1d s w = registerWhy R B o r w := by
      unfold checkOwnerSign at hr
      rw [Res.bind_eq_ok] at hr
      obtain ⟨t, ht, hr⟩ := hr
      split at hr
      · cases hr
      rename_i hne
      simp only [Res.bind_eq_ok] at hr
      obtain ⟨⟨⟩, hm, owner, ho, hash, hh, ⟨⟩, hc, k, hk, hr⟩ := hr
      cases hr
      unfold ownersignWhy
      cases hs : s.nonce3 with
      | none => rw [hs] at hn; cases hn
      | some text =>
        rw [hs] at hn
        simp only [Option.bind_some] at hn
        simp only [ht, hn, if_neg hne, hm, ho]
        unfold blobWhy
        simp only [hh, hc]
        unfold deviceWhy
        unfold deviceKey at hk
        split at hk
        · cases hk
        rename_i ch hch
        split at hk
        · rename_i leaf hl
          have hk := ofOpt_eq_ok.1 hk
          simp only [hch, hl, hk]
        · cases hk
        · cases hk
    rw [hw] at h
    exact hx (register_cause h)
  · rfl

/-! ### What is told belongs to the message -/

/-- The message of a request. -/
def typeOf : Req → MsgType
  | .hello => .to0Hello
  | .ownerSign _ _ => .to0OwnerSign
  | .helloRv _ _ _ => .to1HelloRV
  | .prove _ => .to1ProveToRV

theorem decode_type {t : MsgType} {b : Bytes} {r : Req} (h : RvServer.decode R c t b = some r) : typeOf r = t := by
  unfold RvServer.decode at h
  split at h
  · split at h
    · cases h; rfl
    · cases h
  · split at h
    · rename_i hr
      cases h
      unfold parseOwnerSign at hr
      simp only [Res.bind_eq_ok] at hr
      obtain ⟨⟨a, z⟩, _, d, _, raw, _, s1, _, hr⟩ := hr
      cases hr
      rfl
    · cases h
  · split at h
    · cases h; rfl
    · cases h
  · split at h
    · cases h; rfl
    · cases h
  · cases h

theorem rv_from {r : Req} {x : Rejection} (h : rvWhy R c B cfg o r s w = some (some x)) : fromHandler (typeOf r) x = true := by
  cases r with
  | hello =>
    obtain ⟨_, _, _, rfl, hc⟩ := C95_rendezvous_partial h
    unfold rvWhy helloWhy at h
    simp only at h
    split at h <;> cases h
    decide
  | ownerSign a b =>
    obtain ⟨_, _, rfl, hc⟩ := C95_registration (show ownersignWhy R c B cfg o a b s w = _ from h)
    cases hc <;> (show fromHandler .to0OwnerSign _ = true; decide)
  | helloRv g k i =>
    replace h : helloRvWhy R B o g k i w = _ := h
    show fromHandler .to1HelloRV x = true
    unfold helloRvWhy at h
    repeat' split at h
    all_goals first | (cases h; done) | (cases h; decide)
  | prove token =>
    replace h : proveToRvWhy R c B o token s w = _ := h
    show fromHandler .to1ProveToRV x = true
    unfold proveToRvWhy at h
    repeat' split at h
    all_goals first | (cases h; done) | (cases h; decide)

section server
variable {Id : Type} [DecidableEq Id] {idOf : List Char → Option Id} {aead : Aead} {encode : Resp → Bytes}

/-- **C95**, for requests to a rendezvous server: one that its handler refuses is answered with a reason that is true, and with nothing but
that reason. -/
theorem C95_answered_partial {σ : St (RvServer.server R c B cfg Id idOf aead encode)}
    {rq : Request (RvServer.server R c B cfg Id idOf aead encode)} {a : Accepted (RvServer.server R c B cfg Id idOf aead encode)} {x : Rejection}
    (ha : accept σ rq = some a) (h : rvWhy R c B cfg rq.oracle a.req a.sess.data σ.world = some (some x)) :
    (step σ rq).2 = .reject ∧ why σ rq x = some x ∧ told x ∈ outcomes rq.type ∧
      ∃ code t text, x = .own code t text ∧ RvCause R c B cfg rq.oracle a.sess.data σ.world a.req (code, text) := by
  have hnone : (RvServer.handle R c B cfg rq.oracle a.req a.sess.data σ.world).2 = none := by
    cases hq : (RvServer.handle R c B cfg rq.oracle a.req a.sess.data σ.world).2 with
    | none => rfl
    | some y =>
      have := rv_why.1 (show (RvServer.handle R c B cfg rq.oracle a.req a.sess.data σ.world).2.isSome = true by rw [hq]; rfl)
      rw [this] at h
      cases h
  have hw : why σ rq x = some x := by
    unfold why
    rw [ha]
    simp only
    rcases hh : RvServer.handle R c B cfg rq.oracle a.req a.sess.data σ.world with ⟨w', q⟩
    rw [hh] at hnone
    cases hnone
    rfl
  have ht : typeOf a.req = rq.type := by
    unfold accept at ha
    split at ha
    · cases ha
    split at ha
    · cases ha
    split at ha
    · cases ha
    split at ha
    · cases ha
    split at ha
    · cases ha
    rename_i req hp
    cases ha
    unfold parseRequest at hp
    split at hp
    · cases hp
    split at hp
    · cases hp
    split at hp
    · cases hp
    exact decode_type hp
  have hf := rv_from h
  rw [ht] at hf
  exact ⟨(C94_refused σ rq x).2 ⟨x, hw⟩, hw, why_outcome hf hw, C95_rendezvous_partial h⟩

end server

/-! ### What fails -/

/-- What fails: a device whose registration cannot be read by the server is told that it sent its messages in the wrong order. -/
theorem C95_store_violated {token n g : Bytes} {e : Store.SErr} (h1 : s.nonce4.bind parseNonce = some n)
    (h2 : s.guid.bind parseGuid = some g) (h3 : (B.load o.now w (Store.guidText g)).2 = .err e) :
    proveToRvWhy R c B o token s w = some (some (.own 101 .to1ProveToRV "Request sequence failure")) := by
  unfold proveToRvWhy
  cases h4 : s.nonce4 with
  | none => rw [h4] at h1; cases h1
  | some text =>
    cases h5 : s.guid with
    | none => rw [h5] at h2; cases h2
    | some gt =>
      rw [h4] at h1
      rw [h5] at h2
      simp only [Option.bind_some] at h1 h2
      simp only [h1, h2, h3]

/-- What fails: an owner whose redirect blob does not belong to the registration data is told of an internal error of the server. -/
theorem C95_commitment_violated {to0d to1d n : Bytes} {t : To0d R} {k : R.E.Pub} {hash : Hash} (h1 : s.nonce3.bind parseNonce = some n)
    (h2 : parseTo0d R c to0d = .ok t) (h3 : t.nonce = n) (h4 : cfg.mfgKeys = none) (h5 : OwnedBy R c t.voucher k)
    (h6 : BlobOf R c to1d k hash) (h7 : ¬ Voucher.Commits R.E hash to0d) :
    ownersignWhy R c B cfg o to0d to1d s w = some (some (.own 500 .to0OwnerSign "Internal server error")) ∨
    ownersignWhy R c B cfg o to0d to1d s w = none := by
  unfold ownersignWhy
  cases hs : s.nonce3 with
  | none => rw [hs] at h1; cases h1
  | some text =>
    rw [hs] at h1
    simp only [Option.bind_some] at h1
    have hm : mfgTrusted R cfg t.voucher.header.mfgKey = .ok () := by
      unfold mfgTrusted
      rw [h4]
    simp only [h2, h1, h3, ne_eq, not_true_eq_false, if_false, hm, (owned_iff h2).2 h5]
    unfold blobWhy
    rw [to1Hash_ok.2 h6]
    simp only
    cases hc : checkTo0Hash R hash to0d with
    | ok u => exact absurd (checkTo0Hash_ok.1 hc) h7
    | err e => exact .inl rfl
    | panic => exact .inr rfl

end rv
end Verif.Errors
