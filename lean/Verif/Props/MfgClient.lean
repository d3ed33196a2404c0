import Verif.Lemmas.MfgClient
import Mathlib.Data.List.Forall2
/-!
C56 (choice of the key storage) and C64 (authentication of the manufacturing server).
-/
namespace Verif.MfgClient
open Verif Verif.Voucher Verif.Types Verif.MfgServer Verif.Fs
variable {R : ClientEnv}

/-! ### C56 -/

/-- A storage tried: the key is made there, or it is not usable. -/
theorem ends_newKeyIn {t : KeyType} {s : KeyStorage} {tr : Trace (sig R)} {r : Res CliErr (KeyRef R)}
    (h : Prog.Ends (newKeyIn t s) tr r) :
    (∃ k, r = .ok k ∧ MadeIn t s tr k) ∨ (∃ e, r = .err e ∧ Unusable t s tr) := by
  cases s with
  | fileSystem =>
    obtain ⟨x, tr1, rfl, h1⟩ := Prog.ends_act h
    revert h1
    cases (show Option Bytes from x) with
    | none =>
      intro h1
      obtain ⟨rfl, rfl⟩ := Prog.ends_ret h1
      exact .inr ⟨_, rfl, .noRandom⟩
    | some hmac =>
      intro h1
      cases ht : ecType t with
      | false =>
        rw [ht] at h1
        obtain ⟨rfl, rfl⟩ := Prog.ends_ret h1
        exact .inr ⟨_, rfl, .type hmac (not_elliptic ht)⟩
      | true =>
        rw [ht] at h1
        obtain ⟨y, tr2, rfl, h2⟩ := Prog.ends_act h1
        revert h2
        cases hy : (y : Option R.SignKey) with
        | none =>
          intro h2
          obtain ⟨rfl, rfl⟩ := Prog.ends_ret h2
          exact .inr ⟨_, rfl, .noKey hmac⟩
        | some k =>
          intro h2
          obtain ⟨rfl, rfl⟩ := Prog.ends_ret h2
          exact .inl ⟨_, rfl, .fileSystem hmac k (ecType_iff.mp ht)⟩
  | tpm =>
    have h : Prog.Ends (newKeyTpm t) tr r := h
    unfold newKeyTpm at h
    cases ht : ecType t with
    | false =>
      rw [ht] at h
      obtain ⟨rfl, rfl⟩ := Prog.ends_ret h
      exact .inr ⟨_, rfl, .tpmType (not_elliptic ht)⟩
    | true =>
      rw [ht] at h
      obtain ⟨y, tr2, rfl, h2⟩ := Prog.ends_act h
      revert h2
      cases hy : (y : Option (Bytes × Bytes × Bytes × Bytes)) with
      | none =>
        intro h2
        obtain ⟨rfl, rfl⟩ := Prog.ends_ret h2
        exact .inr ⟨_, rfl, .noTpm⟩
      | some k =>
        intro h2
        obtain ⟨rfl, rfl⟩ := Prog.ends_ret h2
        exact .inl ⟨_, rfl, .tpm _ _ _ _ (ecType_iff.mp ht)⟩

theorem ends_newKeyLoop {t : KeyType} {l : List KeyStorage} {tr : Trace (sig R)} {r : Res CliErr (KeyRef R)}
    (h : Prog.Ends (newKeyLoop t l) tr r) :
    (∃ k pre s post trs tr', r = .ok k ∧ l = pre ++ s :: post ∧ List.Forall₂ (Unusable t) pre trs ∧ MadeIn t s tr' k ∧
      tr = trs.flatten ++ tr') ∨
    (∃ e trs, r = .err e ∧ List.Forall₂ (Unusable t) l trs ∧ tr = trs.flatten) := by
  induction l generalizing tr with
  | nil =>
    obtain ⟨rfl, rfl⟩ := Prog.ends_ret h
    exact .inr ⟨_, [], rfl, .nil, rfl⟩
  | cons s l ih =>
    obtain ⟨x, t1, t2, rfl, h1, h2⟩ := Prog.ends_bind h
    obtain ⟨y, t3, t4, rfl, h3, h4⟩ := Prog.ends_bind h1
    rcases ends_newKeyIn h3 with ⟨k, rfl, hk⟩ | ⟨e, rfl, hk⟩
    · obtain ⟨rfl, rfl⟩ := Prog.ends_ret h4
      obtain ⟨rfl, rfl⟩ := Prog.ends_ret h2
      exact .inl ⟨k, [], s, l, [], t3, rfl, rfl, .nil, hk, by simp⟩
    · obtain ⟨rfl, rfl⟩ := Prog.ends_ret h4
      rcases ih h2 with ⟨k, pre, s', post, trs, tr', rfl, rfl, hp, hm, rfl⟩ | ⟨e, trs, rfl, hp, rfl⟩
      · exact .inl ⟨k, s :: pre, s', post, t3 :: trs, tr', rfl, rfl, .cons hk hp, hm, by simp⟩
      · exact .inr ⟨e, t3 :: trs, rfl, .cons hk hp, by simp⟩

theorem getNewKey_eq (t : KeyType) (allowed : Option (List KeyStorage)) :
    getNewKey (R := R) t allowed = newKeyLoop t (allowed.getD [.fileSystem]) := by
  rcases allowed with _ | _ | ⟨s, l⟩ <;> rfl

theorem MadeIn.storage {t : KeyType} {s : KeyStorage} {tr : Trace (sig R)} {k : KeyRef R} (h : MadeIn t s tr k) :
    k.storage = s := by
  cases h <;> rfl

/-- **C56**: if a key is chosen, it was made in one of the allowed kinds of storage, and all that come before in the list turned
out not to be usable. If nothing is said about storage only the file system is allowed. -/
theorem C56_first {t : KeyType} {allowed : Option (List KeyStorage)} {tr : Trace (sig R)} {k : KeyRef R}
    (h : Prog.Ends (getNewKey t allowed) tr (.ok k)) :
    ∃ pre post trs tr', allowed.getD [.fileSystem] = pre ++ k.storage :: post ∧ List.Forall₂ (Unusable t) pre trs ∧
      MadeIn t k.storage tr' k ∧ tr = trs.flatten ++ tr' := by
  rw [getNewKey_eq] at h
  rcases ends_newKeyLoop h with ⟨k', pre, s, post, trs, tr', he, h1, h2, h3, h4⟩ | ⟨e, trs, he, h1, h2⟩
  · cases he
    have hs := h3.storage
    subst hs
    exact ⟨pre, post, trs, tr', h1, h2, h3, h4⟩
  · cases he

/-- **C56**: the choice fails only if no allowed kind of storage is usable. -/
theorem C56_none {t : KeyType} {allowed : Option (List KeyStorage)} {tr : Trace (sig R)} {r : Res CliErr (KeyRef R)}
    (h : Prog.Ends (getNewKey t allowed) tr r) (hr : ∀ k, r ≠ .ok k) :
    ∃ e trs, r = .err e ∧ List.Forall₂ (Unusable t) (allowed.getD [.fileSystem]) trs ∧ tr = trs.flatten := by
  rw [getNewKey_eq] at h
  rcases ends_newKeyLoop h with ⟨k', pre, s, post, trs, tr', he, h1, h2, h3, h4⟩ | ⟨e, trs, he, h1, h2⟩
  · exact absurd he (hr k')
  · exact ⟨e, trs, he, h1, h2⟩

section
variable {can : KeyStorage → Bool} {t : KeyType}

theorem usable_of_made {s : KeyStorage} {tr : Trace (sig R)} {k : KeyRef R} (hf : Fits can tr) (h : MadeIn t s tr k) :
    can s = true ∧ Elliptic t := by
  cases h with
  | fileSystem hmac sign he => exact ⟨(hf.ecKey t _ (List.mem_cons_of_mem _ List.mem_cons_self)).symm, he⟩
  | tpm a b c d he => exact ⟨(hf.tpm t _ List.mem_cons_self).symm, he⟩

theorem not_usable {s : KeyStorage} {tr : Trace (sig R)} (hf : Fits can tr) (h : Unusable t s tr) :
    ¬ (can s = true ∧ Elliptic t) := by
  cases h with
  | noRandom => exact fun hc => absurd (hf.random _ List.mem_cons_self hc.1) nofun
  | noKey hmac =>
    exact fun hc => absurd ((hf.ecKey t _ (List.mem_cons_of_mem _ List.mem_cons_self)).trans hc.1) nofun
  | type hmac he => exact fun hc => he hc.2
  | noTpm => exact fun hc => absurd ((hf.tpm t _ List.mem_cons_self).trans hc.1) nofun
  | tpmType he => exact fun hc => he hc.2

theorem Fits.mono {tr tr' : Trace (sig R)} (h : Fits can tr) (hs : ∀ d ∈ tr', d ∈ tr) : Fits can tr' :=
  ⟨fun t r hr => h.tpm t r (hs _ hr), fun r hr => h.random r (hs _ hr), fun t r hr => h.ecKey t r (hs _ hr)⟩

theorem none_usable {l : List KeyStorage} {trs : List (Trace (sig R))} (hf : Fits can trs.flatten)
    (h : List.Forall₂ (Unusable t) l trs) : ∀ s ∈ l, ¬ (can s = true ∧ Elliptic t) := by
  induction h with
  | nil => exact fun _ h => absurd h List.not_mem_nil
  | cons h1 h2 ih =>
    intro s hs
    rcases List.mem_cons.mp hs with rfl | hs
    · exact not_usable (hf.mono fun d hd => by simp [hd]) h1
    · exact ih (hf.mono fun d hd => by
        simp only [List.flatten_cons, List.mem_append]
        exact .inr hd) s hs

/-- **C56** for a device which can make keys in the storages `can`: whatever the outcome of `get_new_key`, a key is
returned in the first allowed storage which is usable, if there is one, and an error otherwise. -/
theorem C56_selection {allowed : Option (List KeyStorage)} {tr : Trace (sig R)}
    {r : Res CliErr (KeyRef R)} (h : Prog.Ends (getNewKey t allowed) tr r) (hf : Fits can tr) :
    match (allowed.getD [.fileSystem]).find? (fun s => can s && decide (Elliptic t)) with
    | some s => ∃ k, r = .ok k ∧ k.storage = s
    | none => ∃ e, r = .err e := by
  rw [getNewKey_eq] at h
  rcases ends_newKeyLoop h with ⟨k, pre, s, post, trs, tr', rfl, h1, h2, h3, rfl⟩ | ⟨e, trs, rfl, h1, rfl⟩
  · have hu := usable_of_made (hf.mono fun d hd => List.mem_append_right _ hd) h3
    have hn := none_usable (hf.mono fun d hd => List.mem_append_left _ hd) h2
    have hfind : (allowed.getD [.fileSystem]).find? (fun s => can s && decide (Elliptic t)) = some s := by
      rw [h1, List.find?_append, List.find?_eq_none.mpr fun s hs => by simpa using hn s hs]
      simp [hu.1, hu.2]
    rw [hfind]
    exact ⟨k, rfl, h3.storage⟩
  · have hn := none_usable hf h1
    have hfind : (allowed.getD [.fileSystem]).find? (fun s => can s && decide (Elliptic t)) = none :=
      List.find?_eq_none.mpr fun s hs => by simpa using hn s hs
    rw [hfind]
    exact ⟨e, rfl⟩

end

/-! ### C64 -/

variable {c : Bool} {A : Http.Aead} {w : Credential.Surroundings} {args : Args}

/-- **C64**: whatever the network and the server do, when the client sends a public key (`ProvideKey`), then before that it drew a
nonce and a key for key exchange, sent them in a Connect request, got a reply which authenticates the server for this nonce
in the way that was configured, and derived the key under which it now encrypts from its own exchange key and from the
exchange value which the server signed. Without a configured way of verification nothing is sent. -/
theorem C64_authenticated {t : Trace (sig R)} {s : Http.Sent} {r : Option Http.NetReply} (hs : s.type = .diunProvideKey)
    (h : Proc.Reaches (main c A w args) t ⟨.net s, r⟩) :
    ∃ g how n key random rep other flag k iv plain,
      given w args = some g ∧ Configured t g how ∧
      ⟨.app .nonce, some n⟩ ∈ t ∧ ⟨.app .kex, some (key, random)⟩ ∈ t ∧
      ⟨.net ⟨.diunConnect, none,
        R.encConnect ⟨n, .ecdh384, .a256gcm, (OwnerServer.newKex .ecdh384 key random).getPublic⟩⟩, some rep⟩ ∈ t ∧
      Authenticated c how n other rep.body ∧
      (OwnerServer.newKex .ecdh384 key random).deriveKey .device .a256gcm flag other = .ok k ∧
      ⟨.iv, iv⟩ ∈ t ∧ Http.encryptWith A (some ⟨.a256gcm, k⟩) iv plain = some s.body := by
  obtain ⟨t1, t2, g, how, rfl, hg, hc, h⟩ := reaches_diun hs h
  obtain ⟨t3, t4, cl1, ks, iv, body, rep, p, cl2, kr, der, iv2, rfl, h1, h2, h3, h4, h5⟩ := reaches_provide hs h
  obtain ⟨n, k, iv1, body1, rep1, tok, other, flag, key, rfl, g1, g2, g3, g4, g5⟩ := ends_diunKeys h1
  have hb1 : body1 = R.encConnect ⟨n, .ecdh384, .a256gcm, (OwnerServer.newKex .ecdh384 k.1 k.2).getPublic⟩ := by
    have := g1.sent
    cases this
    rfl
  have hk2 : cl2.keys = some ks := h2.keys
  have hks : ks = ⟨.a256gcm, key⟩ := g5
  subst hks
  rw [hk2] at h5
  have hr : decToken (R := R) c rep1.body = some tok := by
    obtain ⟨p, hp, hd⟩ := g1.reads
    have : cl1.keys = none := g1.keys
    rw [this] at hp
    cases hp
    exact hd
  subst hb1
  exact ⟨g, how, n, k.1, k.2, rep1, other, flag, key, iv2, R.encProvideKey der kr.storage, hg,
    hc.mono fun d hd => List.mem_append_left _ hd, by simp, by simp,
    List.mem_append_right _ (List.mem_append_left _ (.tail _ (.tail _ (.tail _ (.head _))))),
    authenticated hr g2, g4, by simp, h5⟩

/-- **C56**, as seen by the server: the storage a device names in its `ProvideKey` message is one of those allowed by the
server's answer (decrypted under the keys of the session), and the first usable one. -/
theorem C56_provided {t : Trace (sig R)} {s : Http.Sent} {r : Option Http.NetReply} (hs : s.type = .diunProvideKey)
    (h : Proc.Reaches (main c A w args) t ⟨.net s, r⟩) {can : KeyStorage → Bool} (hf : Fits can t) :
    ∃ ks tok body rep answer ty allowed der st iv,
      ⟨.net ⟨.diunRequestKeyParameters, tok, body⟩, some rep⟩ ∈ t ∧ Http.decryptWith A (some ks) rep.body = some answer ∧
      R.decKeyParams answer = some (ty, allowed) ∧
      (allowed.getD [.fileSystem]).find? (fun s => can s && decide (Elliptic ty)) = some st ∧
      Http.encryptWith A (some ks) iv (R.encProvideKey der st) = some s.body := by
  obtain ⟨t1, t2, g, how, rfl, hg, hc, h⟩ := reaches_diun hs h
  obtain ⟨t3, t4, cl1, ks, iv, body, rep, p, cl2, kr, der, iv2, rfl, h1, h2, h3, h4, h5⟩ := reaches_provide hs h
  have hk2 : cl2.keys = some ks := h2.keys
  rw [hk2] at h5
  obtain ⟨a, ha, hd⟩ := h2.reads
  rw [hk2] at ha
  have hsel := C56_selection h3 (hf.mono fun d hd =>
    List.mem_append_right _ (List.mem_append_right _ (.tail _ (.tail _ (List.mem_append_left _ hd)))))
  refine ⟨ks, _, body, rep, a, p.1, p.2, der, kr.storage, iv2,
    List.mem_append_right _ (List.mem_append_right _ (.tail _ (.head _))), ha, hd, ?_, h5⟩
  split at hsel
  · rename_i st hfind
    obtain ⟨k, he, hst⟩ := hsel
    cases he
    rw [hst]
    exact hfind
  · obtain ⟨e, he⟩ := hsel
    cases he

end Verif.MfgClient
