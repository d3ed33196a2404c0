import Verif.Spec.MfgClient
import Verif.Lemmas.NetClient
/-!
The parts of the manufacturing client: which deeds they consist of.
-/
namespace Verif.MfgClient
open Verif Verif.Voucher Verif.Types Verif.MfgServer Verif.Fs
variable {R : ClientEnv}

theorem ecType_iff {t : KeyType} : ecType t = true ↔ Elliptic t := by
  cases t <;> simp [ecType, Elliptic]

theorem not_elliptic {t : KeyType} (h : ecType t = false) : ¬ Elliptic t := fun h' => by
  rw [ecType_iff.mpr h'] at h
  cases h

theorem liftD_ok {α : Type} {r : Res Err α} {a : α} (h : liftD r = .ok a) : r = .ok a := by
  cases r <;> cases h
  rfl

theorem liftC_ok {α : Type} {r : Res Rendezvous.ChainErr α} {a : α} (h : liftC r = .ok a) : r = .ok a := by
  cases r <;> cases h
  rfl

theorem orErr_ok {α : Type} {e : CliErr} {o : Option α} {a : α} (h : orErr e o = .ok a) : o = some a := by
  cases o <;> cases h
  rfl

/-! ### What parts of the program do not do -/

/-- Effects besides writing to files. -/
def Mild : Op → Prop
  | .fs (.read _) => True
  | .fs _ => False
  | _ => True

/-- A property of effects which all but requests and writing to files have. -/
structure Quiet (P : (sig R).Eff → Prop) : Prop where
  iv : P .iv
  app : ∀ e, Mild e → P (.app e)

/-- Not a request of type `t`. -/
def SendsNo (t : MsgType) (e : (sig R).Eff) : Prop := ∀ s : Http.Sent, e = .net s → s.type ≠ t

theorem quiet_not (t : MsgType) : Quiet (R := R) (SendsNo t) := ⟨nofun, fun _ _ => nofun⟩

theorem not_sends {t t' : MsgType} (h : t' ≠ t) : ∀ s : Http.Sent, s.type = t' → SendsNo (R := R) t (.net s) := by
  intro s hs s' he
  cases he
  rw [hs]
  exact h

section
variable {P : (sig R).Eff → Prop} (q : Quiet P)
include q

theorem only_newKeyIn (t : KeyType) (s : KeyStorage) : Prog.Only P (newKeyIn (R := R) t s) := by
  cases s with
  | fileSystem =>
    exact Proc.only_bind (Http.only_app (q.app _ trivial)) fun _ => Proc.only_bind Proc.only_some? fun _ =>
      Proc.only_bind Proc.only_check fun _ => Proc.only_bind (Http.only_app (q.app _ trivial)) fun _ =>
      Proc.only_bind Proc.only_some? fun _ => Proc.only_pure
  | tpm =>
    exact Proc.only_bind Proc.only_check fun _ => Proc.only_bind (Http.only_app (q.app _ trivial)) fun _ =>
      Proc.only_bind Proc.only_some? fun _ => Proc.only_pure

theorem only_newKeyLoop (t : KeyType) (l : List KeyStorage) : Prog.Only P (newKeyLoop (R := R) t l) := by
  induction l with
  | nil => exact Proc.only_fail
  | cons s r ih =>
    exact Proc.only_bind (Proc.only_attempt (only_newKeyIn q t s)) fun k => match k with
      | some _ => Proc.only_pure
      | none => ih

theorem only_getNewKey (t : KeyType) (l : Option (List KeyStorage)) : Prog.Only P (getNewKey (R := R) t l) := by
  rcases l with _ | _ | ⟨s, l⟩
  · exact only_newKeyLoop q t _
  · exact Proc.only_fail
  · exact only_newKeyLoop q t _

theorem only_readP (p : Path) : Prog.Only P (readP (R := R) p) :=
  Proc.only_bind (Http.only_app (q.app _ trivial)) fun _ => Proc.only_some?

theorem only_storedKey (w : Credential.Surroundings) (s : List Char) : Prog.Only P (storedKey (R := R) w s) :=
  Proc.only_ite (Proc.only_bind Proc.only_some? fun _ => Proc.only_bind Proc.only_some? fun _ =>
    Proc.only_bind (only_readP q _) fun _ => Proc.only_bind (only_readP q _) fun _ =>
    Proc.only_bind Proc.only_some? fun _ => Proc.only_pure) Proc.only_fail

theorem only_hmacOf (k : KeyRef R) (b : Bytes) : Prog.Only P (hmacOf k b) := by
  cases k with
  | fs => exact Proc.only_lift
  | tpm => exact Proc.only_bind (Http.only_app (q.app _ trivial)) fun _ => Proc.only_bind Proc.only_some? fun _ => Proc.only_lift

omit q in
theorem only_writeP (hw : ∀ o, P (.app (.fs o))) (p : Path) (b : Bytes) : Prog.Only P (writeP (R := R) p b) :=
  Proc.only_bind (Http.only_app (hw _)) fun _ => Proc.only_bind Proc.only_check fun _ =>
    Proc.only_bind (Http.only_app (hw _)) fun _ => Proc.only_check

omit q in
theorem only_save (hw : ∀ o, P (.app (.fs o))) (w : Credential.Surroundings) (k : KeyRef R) (info : String) (guid : Bytes) (rv : R.E.Rv) (h : Hash) :
    Prog.Only P (save w k info guid rv h) :=
  Proc.only_bind Proc.only_some? fun _ => Proc.only_bind Proc.only_lift fun _ => only_writeP hw _ _

theorem only_serialInfo : Prog.Only P (serialInfo (R := R)) :=
  Proc.only_bind (Http.only_app (q.app _ trivial)) fun t => match (t : Option (List Char)) with
    | some _ => Proc.only_pure
    | none => Proc.only_bind (Http.only_app (q.app _ trivial)) fun _ => Proc.only_bind Proc.only_some? fun _ => Proc.only_pure

theorem only_macInfo (w : Credential.Surroundings) (i : Option (List Char)) : Prog.Only P (macInfo (R := R) w i) :=
  Proc.only_bind Proc.only_some? fun _ => Proc.only_bind Proc.only_check fun _ => Proc.only_bind (Http.only_app (q.app _ trivial)) fun _ =>
    Proc.only_bind Proc.only_some? fun _ => Proc.only_bind Proc.only_check fun _ => Proc.only_pure

theorem only_mfgInfo (w : Credential.Surroundings) (t : MfgString) (i : Option (List Char)) :
    Prog.Only P (mfgInfo (R := R) w t i) := by
  unfold mfgInfo
  rcases w.var "MANUFACTURING_INFO".toList with _ | _ | s
  · refine Proc.only_bind ?_ fun _ => Proc.only_bind Proc.only_check fun _ => Proc.only_pure
    cases t
    · exact only_serialInfo q
    · exact only_macInfo q w i
  · exact Prog.only_ret
  · exact Proc.only_pure

theorem only_verification (roots : Option Path) (h : Option (List Char)) (b : Bool) :
    Prog.Only P (verification (R := R) roots h b) := by
  unfold verification
  cases roots with
  | some p => exact Proc.only_bind (only_readP q p) fun _ => Proc.only_bind Proc.only_some? fun _ => Proc.only_pure
  | none =>
    cases h with
    | some s => exact Proc.only_bind Proc.only_lift fun _ => Proc.only_pure
    | none => exact Proc.only_ite Proc.only_pure Proc.only_fail

theorem only_ifaceFor (ty : MfgString) (g : Option (List Char)) : Prog.Only P (ifaceFor (R := R) ty g) := by
  cases ty with
  | serialNumber => exact Proc.only_pure
  | macAddress =>
    cases g with
    | none => exact Proc.only_bind (Proc.only_bind (Http.only_app (q.app _ trivial)) fun _ => Proc.only_some?) fun _ => Proc.only_pure
    | some g => exact Proc.only_pure

variable (c : Bool) (A : Http.Aead) (hw : ∀ o, P (.app (.fs o)))

include hw in
theorem only_di (ha : ∀ s : Http.Sent, s.type = .diAppStart → P (.net s)) (hh : ∀ s : Http.Sent, s.type = .diSetHmac → P (.net s))
    (w : Credential.Surroundings) (cl : Http.Client) (k : KeyRef R) (ty : MfgString) (i : Option (List Char)) :
    Prog.Only P (di c A w cl k ty i) :=
  Proc.only_bind (only_mfgInfo q _ _ _) fun _ => Proc.only_bind (Http.only_send q.iv ha) fun _ =>
    Proc.only_bind Proc.only_lift fun _ => Proc.only_bind (only_hmacOf q _ _) fun _ => Proc.only_bind Proc.only_lift fun _ =>
    Proc.only_bind (only_save hw _ _ _ _ _ _) fun _ => Proc.only_bind (Http.only_send q.iv hh) fun _ => Proc.only_pure

include hw in
theorem only_plainDi (ha : ∀ s : Http.Sent, s.type = .diAppStart → P (.net s))
    (hh : ∀ s : Http.Sent, s.type = .diSetHmac → P (.net s))
    (w : Credential.Surroundings) (ty : MfgString) (i s : Option (List Char)) : Prog.Only P (plainDi (R := R) c A w ty i s) :=
  Proc.only_bind (only_ifaceFor q _ _) fun _ => Proc.only_bind Proc.only_some? fun _ =>
    Proc.only_bind (only_storedKey q _ _) fun _ => only_di q c A hw ha hh _ _ _ _ _

theorem only_diunKeys (ha : ∀ s : Http.Sent, s.type = .diunConnect → P (.net s)) (how : Verification R) (cl : Http.Client) :
    Prog.Only P (diunKeys c A how cl) :=
  Proc.only_bind (Http.only_app (q.app _ trivial)) fun _ => Proc.only_bind Proc.only_some? fun _ =>
    Proc.only_bind (Http.only_app (q.app _ trivial)) fun _ => Proc.only_bind Proc.only_some? fun _ =>
    Proc.only_bind (Http.only_send q.iv ha) fun _ => Proc.only_bind Proc.only_lift fun _ => Proc.only_bind Proc.only_some? fun _ =>
    Proc.only_bind Proc.only_lift fun _ => Proc.only_pure

end

/-! ### Successful parts -/

theorem ends_diunKeys {c : Bool} {A : Http.Aead} {how : Verification R} {cl : Http.Client} {t : Trace (sig R)}
    {x : Http.Client × Http.Keys} (h : Prog.Ends (diunKeys c A how cl) t (.ok x)) :
    ∃ n k iv body r s other flag key,
      t = [⟨.app .nonce, some n⟩, ⟨.app .kex, some k⟩, ⟨.iv, iv⟩, ⟨.net ⟨.diunConnect, cl.token, body⟩, some r⟩] ∧
      Http.Exchanged A (decToken (R := R) c) cl x.1 .diunConnect .diunAccept
        (R.encConnect ⟨n, .ecdh384, .a256gcm, (OwnerServer.newKex .ecdh384 k.1 k.2).getPublic⟩) iv none body r s ∧
      acceptValue how n s = .ok other ∧ x.1.nonInterop = some flag ∧
      (OwnerServer.newKex .ecdh384 k.1 k.2).deriveKey .device .a256gcm flag other = .ok key ∧ x.2 = ⟨.a256gcm, key⟩ := by
  obtain ⟨n', t1, rfl, g1⟩ := Proc.ends_ask_bind h
  obtain ⟨n, hn, g2⟩ := Proc.ends_some_bind g1
  obtain ⟨k', t2, rfl, g3⟩ := Proc.ends_ask_bind g2
  obtain ⟨k, hk, g4⟩ := Proc.ends_some_bind g3
  obtain ⟨⟨cl', s⟩, t3, t4, rfl, g5, g6⟩ := Proc.ends_bind g4
  obtain ⟨other, ho, g7⟩ := Proc.ends_lift_bind g6
  obtain ⟨flag, hf, g8⟩ := Proc.ends_some_bind g7
  obtain ⟨key, hd, g9⟩ := Proc.ends_lift_bind g8
  obtain ⟨rfl, rfl⟩ := Proc.ends_pure g9
  obtain ⟨iv, body, r, rfl, he⟩ := Http.ends_send g5
  have hn : n' = some n := hn
  have hk : k' = some k := hk
  subst hn hk
  exact ⟨n, k, iv, body, r, s, other, flag, key, rfl, he, ho, hf, liftD_ok hd, rfl⟩

/-- The deeds up to the sending of a public key. -/
theorem reaches_provide {c : Bool} {A : Http.Aead} {how : Verification R} {cl : Http.Client} {t : Trace (sig R)}
    {s : Http.Sent} {r : Option Http.NetReply} (hs : s.type = .diunProvideKey)
    (h : Proc.Reaches (diun c A how cl) t ⟨.net s, r⟩) :
    ∃ t1 t2 cl1 ks iv body rep p cl2 k der iv2,
      t = t1 ++ ⟨.iv, iv⟩ :: ⟨.net ⟨.diunRequestKeyParameters, cl1.token, body⟩, some rep⟩ :: (t2 ++ [⟨.iv, iv2⟩]) ∧
      Prog.Ends (diunKeys c A how cl) t1 (.ok (cl1, ks)) ∧
      Http.Exchanged A R.decKeyParams cl1 cl2 .diunRequestKeyParameters .diunProvideKeyParameters R.encRequestKey iv
        (some (some ks)) body rep p ∧
      Prog.Ends (getNewKey p.1 p.2) t2 (.ok k) ∧ k.publicDer = some der ∧
      Http.encryptWith A cl2.keys iv2 (R.encProvideKey der k.storage) = some s.body := by
  have hq := quiet_not (R := R) .diunProvideKey
  have hd : ¬ SendsNo .diunProvideKey (⟨.net s, r⟩ : (sig R).Deed).1 := fun hh => hh s rfl hs
  obtain ⟨⟨cl1, ks⟩, t1, t', rfl, h1, g1⟩ := Proc.reaches_after
    (only_diunKeys hq c A (not_sends (by decide)) how cl) hd h
  obtain ⟨⟨cl2, p⟩, t2, t'', rfl, h2', g2⟩ := Proc.reaches_after
    (Http.only_send hq.iv (not_sends (by decide))) hd g1
  obtain ⟨k, t3, t4, rfl, h3, g3⟩ := Proc.reaches_after (only_getNewKey hq p.1 p.2) hd g2
  obtain ⟨der, t5, t6, rfl, h4', g4⟩ := Proc.reaches_after Proc.only_some? hd g3
  obtain ⟨rfl, h4⟩ := Proc.ends_some? h4'
  have g5 := Proc.reaches_before (P := SendsNo .diunProvideKey)
    (fun _ => Proc.only_pure) hd g4
  obtain ⟨iv2, rfl, _, h5, _, _⟩ := Http.reaches_send g5
  obtain ⟨iv, body, rep, rfl, h2⟩ := Http.ends_send h2'
  exact ⟨t1, t3, cl1, ks, iv, body, rep, p, cl2, k, der, iv2, by simp, h1, h2, h3, h4, h5⟩

/-- The checks of the Accept message. -/
theorem authenticated {c : Bool} {how : Verification R} {n b other : Bytes} {s : Sign1} (hs : decToken (R := R) c b = some s)
    (h : acceptValue how n s = .ok other) : Authenticated c how n other b := by
  have hp : parseSign1 R.E c b = .ok s := by
    unfold decToken at hs
    split at hs <;> cases hs
    assumption
  unfold acceptValue at h
  obtain ⟨pub, h1, h⟩ := Res.bind_eq_ok.mp h
  obtain ⟨ch, h2, h⟩ := Res.bind_eq_ok.mp h
  obtain ⟨leaf, h3, h⟩ := Res.bind_eq_ok.mp h
  obtain ⟨key, h4, h⟩ := Res.bind_eq_ok.mp h
  split at h
  · cases h
  rename_i h5
  obtain ⟨n', h6, g⟩ := Res.bind_eq_ok.mp h
  split at g
  · cases g
  rename_i h7
  have h7 : n' = n := by simpa using h7
  subst h7
  refine ⟨s, pub, ch, leaf, key, hp, ?_, orErr_ok h2, ?_, orErr_ok h4, by simpa using h5, ?_, orErr_ok g⟩
  · exact Option.join_eq_some_iff.mp (orErr_ok h1)
  · have h3 := liftC_ok h3
    cases how with
    | hash d =>
      obtain ⟨seg, root, rest, h1, h2, h3, h4⟩ := Rendezvous.C19_digest _ _ _ _ h3
      exact ⟨seg, root, rest, h1, h2, h3, h4⟩
    | certs bag =>
      obtain ⟨seg, root, rest, h1, h2, h3, h4⟩ := Rendezvous.C19_bag _ _ _ _ h3
      exact ⟨seg, root, rest, h1, h2, h3, h4⟩
    | insecure =>
      obtain ⟨seg, root, rest, h1, h2, h3, h4⟩ := Rendezvous.C19_path_to_root (fun _ => .ok true) _ _ h3
      exact ⟨seg, root, rest, h1, h2, trivial, h4⟩
  · exact Option.join_eq_some_iff.mp (orErr_ok h6)

/-- How the server's key is to be verified. -/
theorem ends_verification {roots : Option Path} {h : Option (List Char)} {b : Bool} {t : Trace (sig R)} {how : Verification R}
    (he : Prog.Ends (verification roots h b) t (.ok how)) : Configured t (roots, h, b) how := by
  unfold verification at he
  cases roots with
  | some p =>
    obtain ⟨x, t1, t2, rfl, h1, he1⟩ := Proc.ends_bind he
    obtain ⟨l, h2, he2⟩ := Proc.ends_some_bind he1
    obtain ⟨rfl, rfl⟩ := Proc.ends_pure he2
    obtain ⟨b', t3, rfl, h3⟩ := Proc.ends_ask_bind h1
    obtain ⟨rfl, h4⟩ := Proc.ends_some? h3
    have h4 : b' = some x := h4
    subst h4
    exact .certs p h b x l (by simp) h2
  | none =>
    cases h with
    | some s =>
      obtain ⟨x, hx, he1⟩ := Proc.ends_lift_bind he
      obtain ⟨rfl, rfl⟩ := Proc.ends_pure he1
      exact .hash s b x (liftD_ok hx)
    | none =>
      cases b with
      | true =>
        obtain ⟨rfl, rfl⟩ := Proc.ends_pure he
        exact .insecure
      | false => exact absurd he fun he => Proc.ends_fail he

theorem Configured.mono {t u : Trace (sig R)} {g : Option Path × Option (List Char) × Bool} {how : Verification R}
    (h : Configured t g how) (hs : ∀ d ∈ t, d ∈ u) : Configured u g how := by
  cases h with
  | certs p hash i b l h1 h2 => exact .certs p hash i b l (hs _ h1) h2
  | hash s i h h1 => exact .hash s i h h1
  | insecure => exact .insecure

/-- The only way for the client to reach the sending of a public key. -/
theorem reaches_diun {c : Bool} {A : Http.Aead} {w : Credential.Surroundings} {args : Args} {t : Trace (sig R)}
    {s : Http.Sent} {r : Option Http.NetReply} (hs : s.type = .diunProvideKey)
    (h : Proc.Reaches (main c A w args) t ⟨.net s, r⟩) :
    ∃ (t1 t2 : Trace (sig R)) (g : _) (how : Verification R), t = t1 ++ t2 ∧ given w args = some g ∧ Configured t1 g how ∧
      Proc.Reaches (diun c A how .new) t2 ⟨.net s, r⟩ := by
  have hq := quiet_not (R := R) .diunProvideKey
  have hd : ¬ SendsNo .diunProvideKey (⟨.net s, r⟩ : (sig R).Deed).1 := fun hh => hh s rfl hs
  have hdi : ∀ cl k ty i, Prog.Only (S := sig R) (SendsNo .diunProvideKey)
      (di c A w cl k ty i) := fun cl k ty i => only_di hq c A (fun _ => nofun) (not_sends (by decide))
        (not_sends (by decide)) w cl k ty i
  have hdiun : ∀ how i t, Proc.Reaches (diunDi c A w how i) t ⟨.net s, r⟩ → Proc.Reaches (diun c A how .new) t ⟨.net s, r⟩ :=
    fun how i t h => Proc.reaches_before (fun x => Proc.only_bind (only_ifaceFor hq _ _) fun _ => hdi _ _ _ _) hd h
  have hstart : ∀ t, Proc.Reaches (start c A w args) t ⟨.net s, r⟩ → ∃ (t1 t2 : Trace (sig R)) (g : _) (how : Verification R), t = t1 ++ t2 ∧ given w args = some g ∧
      Configured t1 g how ∧ Proc.Reaches (diun c A how .new) t2 ⟨.net s, r⟩ := by
    intro t h
    have hplain : ∀ ty i x, ¬ Proc.Reaches (plainDi c A w ty i x) t ⟨.net s, r⟩ := fun ty i x =>
      Proc.not_reaches (only_plainDi hq c A (fun _ => nofun) (not_sends (by decide))
        (not_sends (by decide)) w ty i x) hd
    cases args with
    | plain ty i st => exact absurd h (hplain _ _ _)
    | noPlain roots hash b i =>
      obtain ⟨how, t1, t2, rfl, h1, h2⟩ := Proc.reaches_after (only_verification hq roots hash b) hd h
      exact ⟨t1, t2, _, how, rfl, rfl, ends_verification h1, hdiun _ _ _ h2⟩
    | fromEnv =>
      obtain ⟨_, t1, t2, rfl, h1, h2⟩ := Proc.reaches_after Proc.only_some? hd h
      obtain ⟨rfl, -⟩ := Proc.ends_some? h1
      by_cases hp : envVar w "USE_PLAIN_DI" = some "true".toList
      · rw [if_pos hp] at h2
        obtain ⟨ty, t3, t4, rfl, h3, h4⟩ := Proc.reaches_after Proc.only_some? hd h2
        obtain ⟨rfl, -⟩ := Proc.ends_some? h3
        exact absurd h4 (hplain _ _ _)
      · rw [if_neg hp] at h2
        obtain ⟨how, t3, t4, rfl, h3, h4⟩ := Proc.reaches_after (only_verification hq _ _ _) hd h2
        refine ⟨t3, t4, _, how, rfl, ?_, ends_verification h3, hdiun _ _ _ h4⟩
        have hp' : ¬ w.var "USE_PLAIN_DI".toList = some (some "true".toList) := fun h' =>
          hp (by unfold envVar; rw [h']; rfl)
        exact if_neg hp'
  unfold main at h
  cases hf : Credential.find w with
  | none => rw [hf] at h; exact hstart t h
  | some x =>
    rw [hf] at h
    cases x with
    | err e => exact absurd h (Proc.not_reaches (P := SendsNo .diunProvideKey)
        Proc.only_fail hd)
    | panic => exact absurd h (Proc.not_reaches (P := SendsNo .diunProvideKey)
        Prog.only_ret hd)
    | ok l =>
      obtain ⟨b, t1, t2, rfl, h1, h2⟩ := Proc.reaches_after (only_readP hq _) hd h
      obtain ⟨cr, t3, t4, rfl, h3, h4⟩ := Proc.reaches_after Proc.only_some? hd h2
      obtain ⟨rfl, -⟩ := Proc.ends_some? h3
      cases ha : cr.active with
      | true =>
        rw [ha] at h4
        exact absurd h4 (Proc.not_reaches (P := SendsNo .diunProvideKey) Proc.only_pure hd)
      | false =>
        rw [ha] at h4
        obtain ⟨t5, t6, g, how, rfl, h5, h6, h7⟩ := hstart _ h4
        exact ⟨t1 ++ t5, t6, g, how, by simp, h5, h6.mono fun d hd => List.mem_append_right _ hd, h7⟩

end Verif.MfgClient
