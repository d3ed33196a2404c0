import Verif.Props.MfgRun
import Verif.Props.MfgClient
import Verif.Props.MfgCrash
import Verif.Props.MfgExample
import Verif.Lemmas.TalkRun
/-!
A concrete device, which is initialized by the toy manufacturing server of `MfgExample`: it meets the hypotheses of the theorems
about the client. And the witness for the violation of C44.
-/
namespace Verif.MfgClient
open Verif Verif.Voucher Verif.Types Verif.MfgServer Verif.Fs Verif.Store

/-! ### Files of a run -/

/-- The files after operations which were answered as they should. -/
def replayFs (s : Files) : Trace Fs.sig → Option Files
  | [] => some s
  | ⟨.create p, a⟩ :: t => if (show Bool from a) then replayFs (s.set p (some [])) t else none
  | ⟨.append p b, a⟩ :: t =>
    match s p with
    | some c => if (show Bool from a) then replayFs (s.set p (some (c ++ b))) t else none
    | none => none
  | ⟨.read p, a⟩ :: t => if (show Option Bytes from a) = s p then replayFs s t else none
  | _ => none

theorem replayFs_run {s s' : Files} {t : Trace Fs.sig} (h : replayFs s t = some s') : Fs.Run s t s' := by
  induction t generalizing s with
  | nil => cases h; exact .nil
  | cons d t ih =>
    obtain ⟨o, a⟩ := d
    cases o with
    | create p =>
      simp only [replayFs] at h
      split at h
      · rename_i ha
        have ha : a = true := ha
        subst ha
        exact .cons .create (ih h)
      · cases h
    | append p b =>
      simp only [replayFs] at h
      split at h
      · rename_i c hc
        split at h
        · rename_i ha
          have ha : a = true := ha
          subst ha
          exact .cons (.append hc) (ih h)
        · cases h
      · cases h
    | read p =>
      simp only [replayFs] at h
      split at h
      · rename_i ha
        have ha : a = s p := ha
        subst ha
        cases hs : s p with
        | none => exact .cons .readFails (ih h)
        | some c => exact .cons (.read hs) (ih h)
      · cases h
    | exists? p => cases h
    | rename a b => cases h
    | remove p => cases h

namespace Toy
open Verif.RvServer.Toy (aead guid)

/-- The device of the example; HMACs are a checksum, and a credential file has the flag, the GUID and the key only. -/
@[reducible] def env : ClientEnv where
  toMfgEnv := MfgServer.Toy.env
  SignKey := UInt8
  signPub k := some [k]
  signPriv k := some [k]
  signFromDer b := b.head?
  tpmPub b := some b
  H := ⟨fun t k d => Verif.Toy.digest t (k ++ d), fun _ _ _ => none⟩
  codec := ⟨fun c => (if c.active then 1 else 0) :: c.guid,
    fun b => match b with
      | f :: g => some ⟨f == 1, 101, [], g, [], ⟨.sha384, []⟩, .plain [] []⟩
      | [] => none⟩
  pubChain p := some p
  hashCert t q := Verif.Toy.digest t [UInt8.ofNat (show Nat × Nat from q).1]
  pemCerts _ := some [((100 : Nat), (100 : Nat))]
  protNonce b := some (some b)
  encConnect := MfgServer.Toy.encConnect
  decAccept b := some b
  encRequestKey := [3]
  decKeyParams b := if b = [4] then some (.ecdsa384, some [.tpm, .fileSystem]) else none
  encProvideKey := MfgServer.Toy.encProvideKey
  decDiunDone b := if b = [5] then some .serialNumber else none
  encAppStart i := Verif.Toy.textBytes i.toList
  encSetHmac := MfgServer.Toy.encSetHmac
  decDiDone b := if b = [2] then some () else none

theorem wire : Wire env MfgServer.Toy.cfg MfgServer.Toy.encode where
  connect m _ h := (Option.some.inj ((MfgServer.Toy.decConnect_enc m).symm.trans h)).symm
  accept b b' h := (Option.some.inj (show some b = some b' from h)).symm
  token _ := rfl
  header _ := rfl
  provideKey d s x h := by
    cases s <;> exact (Option.some.inj (show some (d, _) = some x from h)).symm
  appStart i i' raw h h' := by
    cases (Option.some.inj (show some (Verif.Toy.textBytes i.toList) = some raw from h))
    change some (some (String.ofList (Verif.Toy.bytesText ((Verif.Toy.textBytes i.toList).length / 4) _))) = _ at h'
    rw [Verif.Toy.textBytes_length, Nat.mul_div_cancel_left _ (by omega), Verif.Toy.bytesText_text, String.ofList_toList] at h'
    exact (Option.some.inj (Option.some.inj h')).symm
  setHmac h h' e := by
    change (Verif.Toy.takeType (Verif.Toy.encType h.type ++ h.value)).map _ = _ at e
    rw [Verif.Toy.takeType_enc] at e
    exact (Option.some.inj e).symm
  payload b h := by
    change b.length < 2 ^ 63
    omega
  keyUnprot d _ := Verif.Toy.isItem_encBytes (by simp)
  sizes d n p prot sg _ h := by
    change (if n.length < 100 ∧ p.length < 5000 then some (n, [(show UInt8 from d.key)]) else none) = some (prot, sg) at h
    change prot.length < 2 ^ 63 ∧ sg.length < 2 ^ 63
    split at h
    · rename_i hl
      cases h
      simp only [List.length_cons, List.length_nil]
      omega
    · cases h

theorem opens : Http.Opens aead := by
  intro k iv p b h
  cases h
  change (if k.isPrefixOf (k ++ p) then some ((k ++ p).drop k.length) else none) = some p
  rw [if_pos (by simp), List.drop_left]

/-- Answers of the device's operating system; the state are the files. There is no TPM. -/
def os (s : Files) : (e : Op) → Files × Op.Ans env e
  | .nonce => (s, some (List.replicate 16 4))
  | .kex => (s, some ((3 : UInt8), List.replicate 48 1))
  | .random => (s, some (List.replicate 32 8))
  | .ecKey _ => (s, some (9 : UInt8))
  | .tpmKeys _ => (s, none)
  | .tpmHmac _ _ _ => (s, none)
  | .readText _ => (s, some "dev".toList)
  | .route => (s, none)
  | .fs (.create p) => (s.set p (some []), true)
  | .fs (.append p b) => (s.set p ((s p).map (· ++ b)), true)
  | .fs (.read p) => (s, s p)
  | .fs (.exists? p) => (s, (s p).isSome)
  | .fs (.rename _ _) => (s, false)
  | .fs (.remove _) => (s, false)

section
variable (B : MStore)

/-- The server draws session ids `0`, `1`, … and the GUID aa…aa. -/
def around (fate : Nat → Http.Fate) : Http.Around (MfgServer.Toy.srv B) (ops env) Files where
  req n q := ⟨q.type, true, q.auth, q.body, (toString n).toList, [], ⟨100 * second, some ((5 : UInt8), List.replicate 48 2),
    some guid, some [1], false, fun _ => .ok none⟩, true⟩
  fate := fate
  ivs _ := []
  ans := os
  kdf rq := rq.oracle.nonInterop

/-- A device without anything in its environment. -/
def w : Credential.Surroundings := ⟨fun _ => false, fun _ => none⟩

/-- The only file has the trusted certificates. -/
def files : Files := fun p => if p = "/roots".toList then some [1] else none

def args : Args := .noPlain (some "/roots".toList) none false none

def now : Http.Now (MfgServer.Toy.srv B) Move Files := ⟨0, [], Http.start B.empty, files⟩

def client : Proc (sig env) CliErr Unit := main true aead w args

def trace (fate : Nat → Http.Fate) : Trace (sig env) := Prog.doings (Http.answer (around B fate)) (now B) client

def past (fate : Nat → Http.Fate) : MfgServer.Toy.Hs B := (Prog.exec (Http.answer (around B fate)) (now B) client).1.past

def result (fate : Nat → Http.Fate) : Res CliErr Unit := (Prog.exec (Http.answer (around B fate)) (now B) client).2

def fine (_ : Nat) : Http.Fate := .good

/-- Connect requests are for this suite. -/
def suite : Http.Event (MfgServer.Toy.srv B) Move → Bool
  | .request rq => rq.type != .diunConnect || ((MfgServer.Toy.decConnect rq.body).all fun m => m.kex == .ecdh384)
  | _ => true

/-- The type of a request. -/
def sentType : (sig env).Deed → Option MsgType
  | ⟨.net q, _⟩ => some q.type
  | _ => none

def chk : Bool :=
  (past B fine).all (suite B) && (trace B fine).any (fun d => sentType d == some .diunProvideKey) &&
  decide (result B fine = .ok ()) &&
  MfgServer.Toy.shortReplies B (Http.start B.empty) (past B fine) &&
  MfgServer.Toy.freshIds B (Http.start B.empty) (past B fine) &&
  decide (((past B fine).filterMap (drawn MfgServer.Toy.env true B MfgServer.Toy.cfg some aead MfgServer.Toy.encode)).Nodup) &&
  (replayFs files (fileDeeds (trace B fine))).isSome

/-- The credential that is written. -/
def cred : Credential.Cred :=
  ⟨true, 101, "dev".toList, guid, [0x80], ⟨.sha384, Verif.Toy.digest .sha384 [0x18, 7]⟩, .plain (List.replicate 32 8) [9]⟩

/-- The request with the HMAC gets lost. -/
def cut (n : Nat) : Http.Fate := if n = 4 then .lost else .good

def chkCut : Bool :=
  decide (result B cut = .err (.http .network)) &&
  (match replayFs files (fileDeeds (trace B cut)) with
    | some s' => decide (s' Credential.etcPath = some (env.codec.enc cred))
    | none => false)

end

example : chk dirM = true := by decide +kernel
example : chk dbM = true := by decide +kernel
example : chkCut dirM = true := by decide +kernel

theorem faithful (B : MStore) (fate : Nat → Http.Fate) : (around B fate).Faithful := by
  intro n q
  refine ⟨rfl, rfl, rfl, rfl, ?_⟩
  intro h
  have h : ' ' ∈ (toString n).toList := h
  rw [Nat.toString_eq_ofList_toDigits] at h
  simp only [String.toList_ofList] at h
  have := Nat.isDigit_of_mem_toDigits (by omega) (by omega) h
  exact absurd this (by decide)

theorem talks (B : MStore) (fate : Nat → Http.Fate) : Http.Talk (move B) (Http.start B.empty)
    (fun rq : Http.Request (MfgServer.Toy.srv B) => rq.oracle.nonInterop) none [] (past B fate) (trace B fate) := by
  obtain ⟨h, h1, h2⟩ := Http.talk_run (move B) (Http.start B.empty) (around B fate) (faithful B fate) client (now B) rfl none
  have h1 : past B fate = [] ++ h := h1
  rw [h1]
  exact h2

theorem sized (B : MStore) (fate : Nat → Http.Fate) (hc : (past B fate).all (suite B) = true) : Sized (trace B fate) (past B fate) where
  client k r h := by
    obtain ⟨s, hs⟩ := Http.run_answers _ _ _ _ _ h
    have hs : some (k, r) = some ((3 : UInt8), List.replicate 48 1) := hs
    cases hs
    rfl
  server rq m k r h hty hm hk := by
    have hm : MfgServer.Toy.decConnect rq.body = some m := hm
    rcases Http.run_requests _ _ _ _ h with h | ⟨n, q, rfl⟩
    · cases h
    · have hk : some ((5 : UInt8), List.replicate 48 2) = some (k, r) := hk
      cases hk
      have hs := List.all_eq_true.mp hc _ h
      simp only [suite, Bool.or_eq_true] at hs
      rcases hs with hs | hs
      · simp [hty] at hs
      · rw [hm] at hs
        have hs : m.kex = .ecdh384 := by simpa using hs
        rw [hs]
        rfl

theorem tpmFits (B : MStore) (fate : Nat → Http.Fate) : TpmFits (trace B fate) := by
  intro pub priv data r h
  obtain ⟨s, hs⟩ := Http.run_answers _ _ _ _ _ h
  exact hs

/-- What C44 says for this run: the credential is written and the voucher is there. -/
theorem C44_example (B : MStore) {Inv : B.W → Prop} {Has : B.W → Name → Bytes → Prop} (K : KeepStore B Inv Has)
    (hc : chk B = true) : ∃ (s' : Files) (cr : Credential.Cred) (b : Bytes), Fs.Run files (fileDeeds (trace B fine)) s' ∧
      s' = files.set Credential.etcPath (some (env.codec.enc cr)) ∧
      ∀ now, (B.load now (reached MfgServer.Toy.env true B MfgServer.Toy.cfg some aead MfgServer.Toy.encode
        (past B fine)).world (guidText cr.guid)).2 = .ok (some b) := by
  simp only [chk, Bool.and_eq_true, decide_eq_true_eq] at hc
  obtain ⟨⟨⟨⟨⟨⟨g0, g1⟩, h0⟩, h1⟩, h2⟩, h3⟩, h4⟩ := hc
  obtain ⟨s', hs'⟩ := Option.isSome_iff_exists.mp h4
  have hrun := replayFs_run hs'
  have hends : Prog.Ends client (trace B fine) (.ok ()) := by
    have := Prog.exec_ends (Http.answer (around B fine)) (now B) client
    have h0 : (Prog.exec (Http.answer (around B fine)) (now B) client).2 = .ok () := h0
    rw [h0] at this
    exact this
  rcases C44_complete_partial (R := env) K MfgServer.Toy.laws MfgServer.Toy.settings MfgServer.Toy.started wire opens toyKex_laws
    hends (talks B fine) (sized B fine g0) (tpmFits B fine) (MfgServer.Toy.smallHeaders B _ h1) (MfgServer.Toy.fresh B _ h2) h3 hrun
    with ⟨hn, _⟩ | ⟨p, cr, info, der, v, b, hp, hs, hl, _⟩
  · obtain ⟨⟨e, a⟩, hd, hp⟩ := List.any_eq_true.mp g1
    cases e with
    | net q => exact absurd rfl (hn _ hd q)
    | iv => cases hp
    | app o => cases hp
  · cases hp
    exact ⟨s', cr, b, hrun, hs, hl⟩

/-- The hypothesis of C64 and C56_provided: the device does send its key. -/
theorem provides (B : MStore) (hc : chk B = true) : ∃ t q r, q.type = .diunProvideKey ∧
    Proc.Reaches (main true aead w args : Proc (sig env) CliErr Unit) t ⟨.net q, r⟩ := by
  simp only [chk, Bool.and_eq_true, decide_eq_true_eq] at hc
  obtain ⟨⟨e, a⟩, hd, hp⟩ := List.any_eq_true.mp hc.1.1.1.1.1.2
  cases e with
  | iv => cases hp
  | app o => cases hp
  | net q =>
    obtain ⟨t1, t2, he⟩ := List.append_of_mem hd
    have := Prog.exec_ends (Http.answer (around B fine)) (now B) client
    change Prog.Ends client (trace B fine) _ at this
    rw [he] at this
    exact ⟨t1, q, a, by simpa [sentType] using hp, t2, ⟨_, this⟩⟩

example := provides dirM (by decide +kernel)

example : ∃ tr k, Prog.Ends (getNewKey (R := env) .ecdsa384 (some [.tpm, .fileSystem])) tr (.ok k) ∧ k.storage = .fileSystem :=
  ⟨_, _, Prog.exec_ends (Http.answer (around dirM fine)) (now dirM) _, rfl⟩

example := C44_example dirM dir_keep (by decide +kernel)
example := C44_example dbM db_keep (by decide +kernel)

/-- **C44** is violated when the request with the HMAC does not arrive: the device has an active credential already, but the server has no
voucher for it. -/
theorem C44_violated : ∃ (t : Trace (sig env)) (h : MfgServer.Toy.Hs dirM) (s' : Files) (cr : Credential.Cred),
    Prog.Ends (main true aead w args) t (.err (.http .network)) ∧
    Http.Talk (move dirM) (Http.start dirM.empty)
      (fun rq : Http.Request (MfgServer.Toy.srv dirM) => rq.oracle.nonInterop) none [] h t ∧
    Fs.Run files (fileDeeds t) s' ∧ s' Credential.etcPath = some (env.codec.enc cr) ∧ cr.active = true ∧
    ∀ now, (dirM.load now (reached MfgServer.Toy.env true dirM MfgServer.Toy.cfg some aead MfgServer.Toy.encode h).world
      (guidText cr.guid)).2 = .ok none := by
  have hc : chkCut dirM = true := by decide +kernel
  simp only [chkCut, Bool.and_eq_true, decide_eq_true_eq] at hc
  obtain ⟨h0, h1⟩ := hc
  have hends : Prog.Ends client (trace dirM cut) (.err (.http .network)) := by
    have := Prog.exec_ends (Http.answer (around dirM cut)) (now dirM) client
    have h0 : (Prog.exec (Http.answer (around dirM cut)) (now dirM) client).2 = .err (.http .network) := h0
    rw [h0] at this
    exact this
  split at h1
  · rename_i s' hs
    refine ⟨_, _, s', cred, hends, talks dirM cut, replayFs_run hs, of_decide_eq_true h1, rfl, fun now => ?_⟩
    have hw : ((reached MfgServer.Toy.env true dirM MfgServer.Toy.cfg some aead MfgServer.Toy.encode (past dirM cut)).world
        (escape (guidText cred.guid))).isNone = true := by decide +kernel
    have hw := Option.isNone_iff_eq_none.mp hw
    change (Store.load some now _ _).2 = _
    unfold Store.load
    rw [hw]
  · cases h1

/-- The hypotheses of C72, for a run that is cut off: the HMAC was sent, but did not arrive. -/
example : ∃ t s', Prog.Does (main true aead w args : Proc (sig env) CliErr Unit) t ∧ Fs.Run files (fileDeeds t) s' ∧
    SendsHmac t ∧ s' ≠ files := by
  have h1 : (trace dirM cut).any (fun d => sentType d == some .diSetHmac) = true := by decide +kernel
  have h2 : chkCut dirM = true := by decide +kernel
  simp only [chkCut, Bool.and_eq_true, decide_eq_true_eq] at h2
  have h3 := h2.2
  obtain ⟨⟨e, a⟩, hd, hp⟩ := List.any_eq_true.mp h1
  split at h3
  · rename_i s' hs
    refine ⟨trace dirM cut, s', ⟨_, Prog.exec_ends (Http.answer (around dirM cut)) (now dirM) client⟩, replayFs_run hs, ?_, ?_⟩
    · cases e with
      | iv => cases hp
      | app o => cases hp
      | net q => exact ⟨q, a, hd, by simpa [sentType] using hp⟩
    · rintro rfl
      have := of_decide_eq_true h3
      cases this
  · cases h3

/-- The hypotheses of C71: a device with an active credential in the usual place. -/
example : ∃ (w : Credential.Surroundings) (l : Credential.Location) (s : Files) (b : Bytes) (cr : Credential.Cred),
    Credential.find w = some (.ok l) ∧ s l.path = some b ∧ env.codec.dec b = some cr ∧ cr.active = true :=
  ⟨⟨fun p => decide (p = Credential.etcPath), fun _ => none⟩, ⟨Credential.etcPath, .deactivate⟩,
    fun p => if p = Credential.etcPath then some [1] else none, [1], _, by decide +kernel, if_pos rfl, rfl, rfl⟩

end Toy
end Verif.MfgClient
