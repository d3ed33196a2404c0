import Verif.Props.LifeToy
/-!
The run of the parties of `LifeToy`.
-/
namespace Verif.Life
open Verif Verif.Voucher Verif.Store Verif.Types Verif.Fs

/-! ### Conversations of a run -/

section
variable {R : Whole}

def turnsB : (Device.sig R.toDevEnv).Deed → Bool
  | ⟨.app (.connect _), _⟩ => true
  | ⟨.app (.sleep _), _⟩ => true
  | ⟨.app .reboot, _⟩ => true
  | _ => false

theorem turnsB_iff (d : (Device.sig R.toDevEnv).Deed) : turnsB d = true ↔ Turns d.1 := by
  obtain ⟨e, a⟩ := d
  cases e with
  | iv => exact ⟨nofun, False.elim⟩
  | net q => exact ⟨nofun, False.elim⟩
  | app o => cases o <;> first | exact ⟨nofun, False.elim⟩ | exact ⟨fun _ => trivial, fun _ => rfl⟩

/-- If the run turns to `u` once only, there is one conversation with `u`. -/
theorem leg_unique {u : String} {pre a post t : Trace (Device.sig R.toDevEnv)} (hpre : ∀ d ∈ pre, d.1 ≠ (.app (.connect u) : (Device.sig R.toDevEnv).Eff))
    (ha : ∀ d ∈ a, ¬ Turns d.1) (hpost : ∀ d ∈ post, d.1 ≠ (.app (.connect u) : (Device.sig R.toDevEnv).Eff)) (hh : ∀ d ∈ post.head?, Turns d.1)
    (h : Leg (pre ++ Device.connected u :: (a ++ post)) u t) : t = a := by
  obtain ⟨pre', post', e, ht, hp⟩ := h
  have key : ∀ {l1 l2 r1 r2 : Trace (Device.sig R.toDevEnv)}, l1 ++ Device.connected u :: r1 = l2 ++ Device.connected u :: r2 →
      (∀ d ∈ l1, d.1 ≠ (.app (.connect u) : (Device.sig R.toDevEnv).Eff)) → (∀ d ∈ r1, d.1 ≠ (.app (.connect u) : (Device.sig R.toDevEnv).Eff)) →
      r1 = r2 := by
    intro l1
    induction l1 with
    | nil =>
      intro l2 r1 r2 e _ hr
      cases l2 with
      | nil => exact (List.cons.inj e).2
      | cons x l2 =>
        have e := (List.cons.inj e).2
        exact absurd rfl (hr (Device.connected u) (by rw [e]; simp))
    | cons x l1 ih =>
      intro l2 r1 r2 e hl hr
      cases l2 with
      | nil => exact absurd (by rw [(List.cons.inj e).1]) (hl x (by simp))
      | cons y l2 => exact ih (List.cons.inj e).2 (fun d hd => hl d (by simp [hd])) hr
  have hr : ∀ d ∈ a ++ post, d.1 ≠ (.app (.connect u) : (Device.sig R.toDevEnv).Eff) := by
    intro d hd
    rcases List.mem_append.1 hd with hd | hd
    · intro h; exact ha d hd (by rw [h]; trivial)
    · exact hpost d hd
  have e := key e hpre hr
  have split : ∀ {a b p q : Trace (Device.sig R.toDevEnv)}, a ++ p = b ++ q → (∀ d ∈ a, ¬ Turns d.1) → (∀ d ∈ b, ¬ Turns d.1) →
      (∀ d ∈ p.head?, Turns d.1) → (∀ d ∈ q.head?, Turns d.1) → a = b := by
    intro a
    induction a with
    | nil =>
      intro b p q e _ hb hp _
      cases b with
      | nil => rfl
      | cons x b =>
        have e : p = (x :: b) ++ q := e
        exact absurd (hp x (by rw [e]; rfl)) (hb x (by simp))
    | cons y a ih =>
      intro b p q e ha hb hp hq
      cases b with
      | nil =>
        have e : (y :: a) ++ p = q := e
        exact absurd (hq y (by rw [← e]; rfl)) (ha y (by simp))
      | cons x b =>
        rw [(List.cons.inj e).1, ih (List.cons.inj e).2 (fun d hd => ha d (by simp [hd])) (fun d hd => hb d (by simp [hd])) hp hq]
  exact (split e ha ht hh hp).symm

theorem bind_ok {S : Sig} {ε α β : Type} {p : Proc S ε α} {f : α → Proc S ε β} {t1 t2 : Trace S} {a : α} {r : Res ε β}
    (h1 : Prog.Ends p t1 (.ok a)) (h2 : Prog.Ends (f a) t2 r) : Prog.Ends (p >>= f : Proc S ε β) (t1 ++ t2) r :=
  Prog.bind_steps h1 h2

/-- How a run that succeeds at once is put together. -/
theorem device_ends {c : Bool} {A : Http.Aead} {w : Credential.Surroundings} {h : SiClient.Host} {l : Credential.Location} {cr : Credential.Cred}
    {n : Nat} (hm : w.exists? (Device.markerPath w) = false) (hf : Credential.find w = some (.ok l))
    (hdec : R.codec.dec (R.codec.enc cr) = some cr) (hact : cr.active = true) (hver : cr.version = 101)
    {i : Rendezvous.Interp} {is : List Rendezvous.Interp} (hrv : Device.rvEntries (R := R.toDevEnv) cr = .ok (i :: is))
    {us : List String} (hurl : Device.clientUrls (R := R.toDevEnv) i = some us)
    {t1 t2 t3 : Trace (Device.sig R.toDevEnv)} {x : Sign1} (h1 : Prog.Ends (Device.getTo1d c A cr us) t1 (.ok (some x)))
    {as : List Device.Addr} (haddr : R.decAddrs x.payload = some as) {b : Bool}
    (h2 : Prog.Ends (Device.tryAddrs c A w h l cr x (Device.to2Urls (R := R.toDevEnv) as)) t2 (.ok (some b)))
    (h3 : Prog.Ends (Device.reboot b) t3 (.ok ())) :
    Prog.Ends (Device.main c A w h (n + 1)) (⟨.app (.fs (.read l.path)), some (R.codec.enc cr)⟩ :: ((t1 ++ t2) ++ t3)) (.ok ()) := by
  unfold Device.main
  rw [if_neg (by simp [hm]), hf]
  refine Prog.Steps.cons (S := Device.sig R.toDevEnv) (e := .app (.fs (.read l.path))) (a := some (R.codec.enc cr)) ?_
  have he : Prog.Ends (Device.start c A w h l cr (n + 1)) ((t1 ++ t2) ++ t3) (.ok ()) := by
    unfold Device.start
    rw [if_neg (by simp [hact]), if_neg (by simp [hver]), hrv]
    change Prog.Ends (Device.onboard c A w h l cr (i :: is) (n + 1) >>= Device.reboot : Proc (Device.sig R.toDevEnv) _ _) _ _
    refine bind_ok ?_ h3
    rw [onboard_succ, tryEntries_cons, hurl]
    have h4 : Prog.Ends (Device.getTo1d c A cr us >>= follow w h l cr c A is : Proc (Device.sig R.toDevEnv) _ _) (t1 ++ t2) (.ok (some b)) := by
      refine bind_ok h1 ?_
      unfold follow
      dsimp only
      rw [haddr]
      have := bind_ok h2 (f := fun (s : Option Bool) => match s with
        | some b => (pure (some b) : Proc (Device.sig R.toDevEnv) Device.DevErr (Option Bool))
        | none => Device.tryEntries c A w h l cr is) (.nil _)
      rw [List.append_nil] at this
      exact this
    have := bind_ok h4 (f := again w h l cr c A (i :: is) n) (.nil _)
    rw [List.append_nil] at this
    exact this
  have hk : Prog.Ends (Proc.mapErr (fun _ => Device.DevErr.io) (Device.files (Proc.some? Credential.CredErr.parse (R.codec.dec (R.codec.enc cr)))) >>=
      fun cr => Device.start c A w h l cr (n + 1) : Proc (Device.sig R.toDevEnv) _ _) ((t1 ++ t2) ++ t3) (.ok ()) := by
    rw [hdec]
    exact he
  exact hk

end

namespace Toy
open Verif.RvServer.Toy (aead guid)
open Verif.Device.Toy (sized)
open Verif.ServiceInfo

/-- Whether a request has a voucher for the device `g`. -/
def brings (R : RvServer.RvEnv) (c : Bool) (g body : Bytes) : Bool :=
  match RvServer.parseOwnerSign R c body with
  | .ok (.ownerSign to0d _) =>
    match RvServer.parseTo0d R c to0d with
    | .ok t => decide (t.voucher.header.guid = g)
    | _ => false
  | _ => false

theorem brings_of {R : RvServer.RvEnv} {c : Bool} {g body to0d to1d : Bytes} {t : RvServer.To0d R} (h1 : RvServer.parseOwnerSign R c body = .ok (.ownerSign to0d to1d))
    (h2 : RvServer.parseTo0d R c to0d = .ok t) (h3 : t.voucher.header.guid = g) : brings R c g body = true := by
  unfold brings
  simp only [h1, h2, h3]
  simp

/-! ### In the factory -/

/-- Answers of the device's operating system; the state are the files. There is no TPM. -/
def os (s : Files) : (e : MfgClient.Op) → Files × MfgClient.Op.Ans env.cli e
  | .nonce => (s, some (List.replicate 16 4))
  | .kex => (s, some ((3 : UInt8), List.replicate 48 1))
  | .random => (s, some (List.replicate 32 8))
  | .ecKey _ => (s, some (9 : UInt8))
  | .tpmKeys _ => (s, none)
  | .tpmHmac _ _ _ => (s, none)
  | .readText _ => (s, some "dev".toList)
  | .route => (s, none)
  | .fs (.create p) => (s.set p (some []), true)
  | .fs (.append p b) => (s.set p ((s p).map (· ++ b)), true)
  | .fs (.read p) => (s, s p)
  | .fs (.exists? p) => (s, (s p).isSome)
  | .fs (.rename _ _) => (s, false)
  | .fs (.remove _) => (s, false)

abbrev Bm : MfgServer.MStore := MfgServer.dirM
abbrev mfg : Http.Server := MfgServer.server env.mfg true Bm mcfg (List Char) some aead MfgServer.Toy.encode
abbrev MHs : Type := MfgServer.Hist env.mfg true Bm mcfg (some : List Char → Option (List Char)) aead MfgServer.Toy.encode

/-- The server draws session ids `0`, `1`, … and the GUID aa…aa. -/
def aroundM : Http.Around mfg (MfgClient.ops env.cli) Files where
  req n q := ⟨q.type, true, q.auth, q.body, (toString n).toList, [], ⟨100 * second, some ((5 : UInt8), List.replicate 48 2),
    some guid, some [1], false, fun _ => .ok none⟩, true⟩
  fate _ := .good
  ivs _ := []
  ans := os
  kdf rq := rq.oracle.nonInterop

abbrev w : Credential.Surroundings := MfgClient.Toy.w
abbrev files : Files := MfgClient.Toy.files
abbrev args : MfgClient.Args := MfgClient.Toy.args

def nowM : Http.Now mfg MfgServer.Move Files := ⟨0, [], Http.start Bm.empty, files⟩
def clientM : Proc (MfgClient.sig env.cli) MfgClient.CliErr Unit := MfgClient.main true aead w args
def traceM : Trace (MfgClient.sig env.cli) := Prog.doings (Http.answer aroundM) nowM clientM
def endM : Http.Now mfg MfgServer.Move Files × Res MfgClient.CliErr Unit := Prog.exec (Http.answer aroundM) nowM clientM
def pastM : MHs := endM.1.past

/-- The credential that is written. -/
def cred : Credential.Cred :=
  ⟨true, 101, "dev".toList, guid, [0x80], ⟨.sha384, Verif.Toy.digest .sha384 [0x18, 7]⟩, .plain (List.replicate 32 8) [9]⟩

/-- The file of the voucher, and the voucher. -/
def stored : Option Bytes :=
  match (Bm.load 0 (MfgServer.reached env.mfg true Bm mcfg some aead MfgServer.Toy.encode pastM).world (guidText guid)).2 with
  | .ok b => b
  | _ => none

def issued : Option (Voucher sized) := stored.bind fun b =>
  match deserialize (E := sized) true b with
  | .ok (v, []) => some v
  | _ => none

/-- It is sold once. -/
def steps : List (Step sized) := [((11 : UInt8), none, (12 : UInt8))]

def sold : Option (Voucher sized) := issued.map fun v => (extendMany true v steps).1

/-! ### At the rendezvous server -/

def ser (i : RvServer.Item env.toRvEnv) : Bytes := (show UInt8 from i.key) :: i.to1d
def de : Bytes → Option (RvServer.Item env.toRvEnv)
  | [] => none
  | k :: t => some ⟨(k : UInt8), t⟩

abbrev Br : RvServer.Backend (RvServer.Item env.toRvEnv) := RvServer.dbBackend ser de
abbrev rv : Http.Server := RvServer.server env.toRvEnv true Br rcfg (List Char) some aead To0.Toy.encode
abbrev Mr := Nat × List Name

def arrivesR (q : Http.Sent) : Http.Request rv :=
  ⟨q.type, true, q.auth, q.body, ['s'], [], ⟨100, some (List.replicate 16 6), false⟩, true⟩

def aroundO : Http.Around rv To0.ops Unit :=
  ⟨fun _ q => arrivesR q, fun _ => .good, fun _ => [], fun _ e => ((), match e with | .connect _ => ()), fun _ => false⟩

/-- The operating system of the device; the file read is the credential. -/
def answers : (e : Device.Op) → Device.Op.Ans env.toDevEnv e
  | .connect _ => ()
  | .nonce => some (List.replicate 16 4)
  | .kex => some ((3 : UInt8), List.replicate 48 1)
  | .uuid => [1]
  | .sign p => sized.sign (9 : UInt8) p
  | .host _ op => SiClient.Toy.answer (some 0) (fun _ => true) op
  | .fs (.create _) => true
  | .fs (.append _ _) => true
  | .fs (.read _) => some (encCred cred)
  | .fs (.exists? _) => true
  | .fs (.rename _ _) => true
  | .fs (.remove _) => true
  | .sleep _ => ()
  | .reencrypt => true
  | .reboot => some true

def aroundD : Http.Around rv (Device.ops env.toDevEnv) Unit :=
  ⟨fun _ q => arrivesR q, fun _ => .good, fun _ => [], fun _ e => ((), answers e), fun _ => false⟩

abbrev reporting (v : Voucher sized) : Proc To0.sig To0.To0Err Nat := To0.report env.toOwnerEnv cfg To0.Toy.msgs aead v
abbrev asking : Proc (Device.sig env.toDevEnv) Device.DevErr (Option Sign1) :=
  orElse (R := env) aead (Device.to1 true aead cred .new) (Device.getTo1d true aead cred [])

def begin0 : Http.Now rv Mr Unit := ⟨0, [], Http.start Br.empty, ()⟩
def end0 (v : Voucher sized) : Http.Now rv Mr Unit × Res To0.To0Err Nat := Prog.exec (Http.answer aroundO) begin0 (reporting v)
def trace0 (v : Voucher sized) : Trace To0.sig := Prog.doings (Http.answer aroundO) begin0 (reporting v)
def begin1 (v : Voucher sized) : Http.Now rv Mr Unit := ⟨0, (end0 v).1.past, (end0 v).1.server, ()⟩
def end1 (v : Voucher sized) : Http.Now rv Mr Unit × Res Device.DevErr (Option Sign1) := Prog.exec (Http.answer aroundD) (begin1 v) asking
def trace1 (v : Voucher sized) : Trace (Device.sig env.toDevEnv) := Prog.doings (Http.answer aroundD) (begin1 v) asking

/-! ### At the owner's server -/

/-- A store holding the voucher; it remembers for whom onboarding was recorded. -/
abbrev Bo (v : Voucher sized) : OwnerServer.VStore (Voucher sized) where
  W := List Name
  empty := []
  load _ w _ := (w, .ok (some v))
  put w _ _ := (w, .ok ())
  setTo2 _ w k := (k :: w, .ok ())
  setWait _ w _ _ := (w, .ok ())
  maintain _ _ w := w
  pending _ _ _ := .ok []
  ending _ _ := .ok []
  windowCheck := false

section
variable (v : Voucher sized)

abbrev own : Http.Server := OwnerServer.server env.toOwnerEnv true (Bo v : OwnerServer.VStore (Voucher env.E)) cfg (List Char) some aead Device.Toy.encode

def arrivesO (q : Http.Sent) : Http.Request (own v) :=
  ⟨q.type, true, q.auth, q.body, ['s'], [], ⟨100, some (List.replicate 16 6), some ((5 : UInt8), List.replicate 48 2),
    some (List.replicate 16 0xbb), false, fun _ => some ⟨none, none, some true⟩⟩, true⟩

def aroundM2 : Http.Around (own v) (Device.ops env.toDevEnv) Unit :=
  ⟨fun _ q => arrivesO v q, fun _ => .good, fun _ => [], fun _ e => ((), answers e), fun _ => false⟩

abbrev place : Credential.Surroundings := Device.Toy.place
abbrev loc : Credential.Location := Device.Toy.loc

abbrev meeting (x : Sign1) : Proc (Device.sig env.toDevEnv) Device.DevErr (Option Bool) :=
  orElse (R := env) aead (Device.to2 true aead place SiClient.Toy.host loc cred x .new) (Device.tryAddrs true aead place SiClient.Toy.host loc cred x [])

def begin2 : Http.Now (own v) Empty Unit := ⟨0, [], ⟨fun _ => none, []⟩, ()⟩
def end2 (x : Sign1) : Http.Now (own v) Empty Unit × Res Device.DevErr (Option Bool) := Prog.exec (Http.answer (aroundM2 v)) (begin2 v) (meeting x)
def trace2 (x : Sign1) : Trace (Device.sig env.toDevEnv) := Prog.doings (Http.answer (aroundM2 v)) (begin2 v) (meeting x)

/-- The redirect blob that the device gets. -/
def blob : Sign1 :=
  match (end1 v).2 with
  | .ok (some x) => x
  | _ => ⟨[], [], [], []⟩

/-- The run of the device. -/
def T : Trace (Device.sig env.toDevEnv) :=
  ⟨.app (.fs (.read loc.path)), some (encCred cred)⟩ :: (((Device.connected (R := env.toDevEnv) "http://rv:80" :: trace1 v) ++
    (Device.connected (R := env.toDevEnv) "http://owner:8081" :: trace2 v (blob v))) ++ [⟨.app .reboot, some true⟩])

/-- Whether a request brings a voucher for the device. -/
def names : Http.Event rv Mr → Bool
  | .request rq => brings env.toRvEnv true guid rq.body
  | _ => false

/-- The run, and what happens in it. -/
def run : Bool :=
  (trace0 v).all To0.Toy.small && (T v).all To0.Toy.small &&
  decide ((end0 v).1.past.map names = [false, true]) &&
  decide ((end1 v).1.past.map names = [false, true, false, false]) &&
  (match (end1 v).2 with | .ok (some _) => true | _ => false) &&
  decide ((end2 v (blob v)).2 = .ok (some true)) &&
  (trace1 v).all (fun d => !turnsB (R := env) d) && (trace2 v (blob v)).all (fun d => !turnsB (R := env) d)

end

/-! ### It is manufactured -/

section
variable {Sv : Http.Server} {M : Type} (mv : M → Sv.W → Sv.W)

/-- All replies are short. -/
def shortReplies : Http.St Sv → List (Http.Event Sv M) → Bool
  | _, [] => true
  | σ, e :: r =>
    (match e with
      | .request rq =>
        match (Http.step σ rq).2 with
        | .ok _ b _ => decide (b.length < 5000)
        | .reject => true
      | _ => true) && shortReplies (Http.after mv σ e) r

/-- New sessions get new ids. -/
def freshIds : Http.St Sv → List (Http.Event Sv M) → Bool
  | _, [] => true
  | σ, e :: r =>
    (match e with
      | .request rq =>
        match Http.accept σ rq with
        | some a => a.cookie.isNone || (σ.sessions a.id).isNone
        | none => true
      | _ => true) && freshIds (Http.after mv σ e) r

theorem shortReplies_at (h1 h2 : List (Http.Event Sv M)) (rq : Http.Request Sv) (σ : Http.St Sv)
    (h : shortReplies mv σ (h1 ++ .request rq :: h2) = true) (t : MsgType) (b : Bytes) (tok : Option (List Char))
    (hr : (Http.step (Http.replay mv σ h1) rq).2 = .ok t b tok) : b.length < 5000 := by
  induction h1 generalizing σ with
  | nil =>
    simp only [List.nil_append, shortReplies, Bool.and_eq_true] at h
    have h := h.1
    simp only [Http.replay] at hr
    rw [hr] at h
    simpa using h
  | cons e r ih =>
    simp only [List.cons_append, shortReplies, Bool.and_eq_true] at h
    exact ih _ h.2 hr

theorem freshIds_at (h1 h2 : List (Http.Event Sv M)) (rq : Http.Request Sv) (σ : Http.St Sv)
    (h : freshIds mv σ (h1 ++ .request rq :: h2) = true) (a : Http.Accepted Sv)
    (hr : Http.accept (Http.replay mv σ h1) rq = some a) (hc : a.cookie ≠ none) :
    (Http.replay mv σ h1).sessions a.id = none := by
  induction h1 generalizing σ with
  | nil =>
    simp only [List.nil_append, freshIds, Bool.and_eq_true] at h
    have h := h.1
    simp only [Http.replay] at hr ⊢
    rw [hr] at h
    simp only [Bool.or_eq_true, Option.isNone_iff_eq_none] at h
    exact h.resolve_left hc
  | cons e r ih =>
    simp only [List.cons_append, freshIds, Bool.and_eq_true] at h
    exact ih _ h.2 hr

end

theorem smallHeaders (h : MHs) (hs : shortReplies (Sv := mfg) (MfgServer.move Bm) (Http.start Bm.empty) h = true) :
    MfgServer.SmallHeaders env.mfg true Bm mcfg some aead MfgServer.Toy.encode h := by
  rintro h' i ks info der g hb ⟨t, rfl⟩ ⟨h1, rq, h2, plain, raw, tok, rfl, _, _, _, _, _, _, _, _, hr, _⟩
  have henc : ∀ p, ∃ b, Http.encryptWith aead ks rq.iv p = some b ∧ p.length ≤ b.length := by
    intro p
    cases ks with
    | none => exact ⟨p, rfl, Nat.le_refl _⟩
    | some k => exact ⟨k.sevk ++ p, rfl, by simp⟩
  obtain ⟨b, hb1, hb2⟩ := henc (MfgServer.Toy.encode (.setCredentials hb))
  have hresp : Http.respond (Sv := mfg) .diSetCredentials (.setCredentials hb) tok ks rq.iv = .ok .diSetCredentials b tok := by
    unfold Http.respond
    rw [if_neg (by cases ks <;> simp [Http.encOk, MsgType.encReq]), hb1]
  rw [hresp] at hr
  have := shortReplies_at (Sv := mfg) (MfgServer.move Bm) h1 (h2 ++ t) rq _ (by simpa using hs) _ _ _ hr
  simp only [MfgServer.Toy.encode] at hb2
  omega

theorem fresh (h : MHs) (hs : freshIds (Sv := mfg) (MfgServer.move Bm) (Http.start Bm.empty) h = true) :
    MfgServer.FreshIds env.mfg true Bm mcfg some aead MfgServer.Toy.encode h := by
  rintro h1 rq h2 a rfl ha hc
  exact freshIds_at (Sv := mfg) (MfgServer.move Bm) h1 h2 rq _ hs a ha hc

/-- Connect requests are for this suite. -/
def suite : Http.Event mfg MfgServer.Move → Bool
  | .request rq => rq.type != .diunConnect || ((MfgServer.Toy.decConnect rq.body).all fun m => m.kex == .ecdh384)
  | _ => true

def sends : (MfgClient.sig env.cli).Deed → Bool
  | ⟨.net _, _⟩ => true
  | _ => false

def chkM : Bool :=
  pastM.all suite && traceM.any sends && decide (endM.2 = .ok ()) && shortReplies (Sv := mfg) (MfgServer.move Bm) (Http.start Bm.empty) pastM &&
  freshIds (Sv := mfg) (MfgServer.move Bm) (Http.start Bm.empty) pastM &&
  decide ((pastM.filterMap (MfgServer.drawn env.mfg true Bm mcfg some aead MfgServer.Toy.encode)).Nodup) &&
  (match MfgClient.replayFs files (MfgClient.fileDeeds traceM) with
    | some s => decide (s Credential.etcPath = some (encCred cred))
    | none => false)

theorem manufactures : chkM = true := by decide +kernel

theorem faithfulM : aroundM.Faithful := by
  intro n q
  refine ⟨rfl, rfl, rfl, rfl, ?_⟩
  intro h
  have h : ' ' ∈ (toString n).toList := h
  rw [Nat.toString_eq_ofList_toDigits] at h
  simp only [String.toList_ofList] at h
  have := Nat.isDigit_of_mem_toDigits (by omega) (by omega) h
  exact absurd this (by decide)

theorem talkM : Http.Talk (MfgServer.move Bm) (Http.start Bm.empty)
    (fun rq : Http.Request mfg => rq.oracle.nonInterop) none [] pastM traceM := by
  obtain ⟨h, h1, h2⟩ := Http.talk_run (MfgServer.move Bm) (Http.start Bm.empty) aroundM faithfulM clientM nowM rfl none
  have h1 : pastM = [] ++ h := h1
  rw [h1]
  exact h2

theorem sizedM (hc : pastM.all suite = true) : MfgClient.Sized traceM pastM where
  client k r h := by
    obtain ⟨s, hs⟩ := Http.run_answers _ _ _ _ _ h
    have hs : some (k, r) = some ((3 : UInt8), List.replicate 48 1) := hs
    cases hs
    rfl
  server rq m k r h hty hm hk := by
    have hm : MfgServer.Toy.decConnect rq.body = some m := hm
    rcases Http.run_requests _ _ _ _ h with h | ⟨n, q, rfl⟩
    · cases h
    · have hk : some ((5 : UInt8), List.replicate 48 2) = some (k, r) := hk
      cases hk
      have hs := List.all_eq_true.mp hc _ h
      simp only [suite, Bool.or_eq_true] at hs
      rcases hs with hs | hs
      · simp [hty] at hs
      · rw [hm] at hs
        have hs : m.kex = .ecdh384 := by simpa using hs
        rw [hs]
        rfl

theorem tpmM : MfgClient.TpmFits traceM := by
  intro pub priv data r h
  obtain ⟨s, hs⟩ := Http.run_answers _ _ _ _ _ h
  exact hs

theorem keyOf (der : Bytes) (h : MfgClient.PublicOf (R := env.cli) cred der) : KeyOf mcfg der (9 : UInt8) := by
  obtain ⟨k, h1, h2⟩ := h
  have h1 : some [(show UInt8 from k)] = some [9] := h1
  have h2 : some [(show UInt8 from k)] = some der := h2
  rw [h1] at h2
  cases h2
  intro f x hx hk
  obtain ⟨n, e, hn, rfl⟩ := built (k := mcfg.caKey) hx
  have hk : some (9 : Nat) = some f.key := hk
  rw [e] at hk
  cases hk
  exact ⟨rfl, rfl⟩

/-- What is stored. -/
def chkV : Bool :=
  match stored with
  | some b => decide (b.length < 1000) &&
    match deserialize (E := sized) true b with
    | .ok (v, []) =>
      match getLeaf sized.decBytes v.contents 1 with
      | .ok hb => decide (hb.length < 1000)
      | _ => true
    | _ => false
  | none => false

theorem has_voucher : chkV = true := by decide +kernel

theorem cred_small : (encCred cred).length < 2 ^ 63 := by decide +kernel

theorem manufactured : ∃ v s', issued = some v ∧ s' Credential.etcPath = some (encCred cred) ∧
    Manufactured (R := env) true aead Bm mcfg some MfgServer.Toy.encode w args traceM pastM files s' loc.path cred (9 : UInt8) v := by
  have hc := manufactures
  simp only [chkM, Bool.and_eq_true, decide_eq_true_eq] at hc
  obtain ⟨⟨⟨⟨⟨⟨g0, g1⟩, h0⟩, h1⟩, h2⟩, h3⟩, h4⟩ := hc
  have hv := has_voucher
  unfold chkV at hv
  split at h4
  · rename_i s' hs'
    split at hv
    · rename_i b hb
      simp only [Bool.and_eq_true, decide_eq_true_eq] at hv
      split at hv
      · rename_i v hd
        have hends : Prog.Ends clientM traceM (.ok ()) := by
          have := Prog.exec_ends (Http.answer aroundM) nowM clientM
          have h0 : (Prog.exec (Http.answer aroundM) nowM clientM).2 = .ok () := h0
          rw [h0] at this
          exact this
        refine ⟨v, s', ?_, of_decide_eq_true h4, ⟨_, _, MfgServer.dir_keep⟩, ⟨mset, started⟩, hends, talkM, sizedM g0, tpmM, smallHeaders _ h1, fresh _ h2, h3,
          MfgClient.replayFs_run hs', ?_, rfl, rfl, ⟨_, of_decide_eq_true h4, cred_small, decCred_enc cred⟩, keyOf, ⟨b, 0, ?_, by omega, hd⟩, ?_⟩
        · unfold issued
          rw [hb, Option.bind_some, hd]
        · obtain ⟨⟨e, a⟩, hd, hp⟩ := List.any_eq_true.mp g1
          cases e with
          | net q => exact ⟨_, hd, q, rfl⟩
          | iv => cases hp
          | app o => cases hp
        · unfold stored at hb
          split at hb
          · rename_i b' hb'
            rw [← hb]
            exact hb'
          · cases hb
        · intro hb1 e
          rw [e] at hv
          have := of_decide_eq_true hv.2
          omega
      · cases hv.2
    · cases hv
  · cases h4

/-! ### It is sold -/

/-- The voucher after the sale is short. -/
theorem short : (match sold with
    | some v => (match serialize v with | .ok b => decide (b.length < 2000) | _ => false)
    | none => false) = true := by decide +kernel

theorem transferred {v v' : Voucher sized} (hv : issued = some v) (hv' : sold = some v') :
    ∃ r, Transferred (R := env) true mcfg cfg steps v v' r := by
  have hs := short
  rw [hv'] at hs
  unfold sold at hv'
  rw [hv] at hv'
  have hv' : (extendMany true v steps).1 = v' := Option.some.inj hv'
  refine ⟨(extendMany true v steps).2, ⟨(11 : UInt8), rfl, ⟨by decide, trivial⟩, rfl⟩, ?_, .inl rfl, by decide, ?_, ?_⟩
  · intro st hst
    rw [List.mem_singleton.1 hst]
    exact ⟨Verif.Toy.goodKey (11 : UInt8), Verif.Toy.smallPayload (12 : UInt8)⟩
  · rw [← hv']
  · intro n b hn hb
    dsimp only at hs
    cases hr : serialize v' with
    | err e => rw [hr] at hs; cases hs
    | panic => rw [hr] at hs; cases hs
    | ok raw =>
      rw [hr] at hs
      have hs : raw.length < 2000 := of_decide_eq_true hs
      unfold OwnerServer.buildTo0d at hb
      rw [hr] at hb
      rw [Res.bind_ok, show Cbor.serialize ⟨none, [raw, env.encU32 cfg.period, env.encNonce n]⟩ =
        .ok ([0x83] ++ [raw, env.encU32 cfg.period, Verif.Toy.encBytes n].flatten) from rfl] at hb
      have e := Res.ok.inj hb
      rw [← e]
      simp only [List.length_append, List.flatten_cons, List.flatten_nil, List.length_cons, List.length_nil, Device.Toy.encBytes_length,
        Cbor.toBe_length, hn]
      omega

/-! ### It is onboarded -/

theorem runs : (match sold with | some v => run v | none => false) = true := by decide +kernel

attribute [local irreducible] second

theorem faithfulO : aroundO.Faithful := fun _ _ => ⟨rfl, rfl, rfl, rfl, (by decide : ' ' ∉ ['s'])⟩
theorem faithfulD : aroundD.Faithful := fun _ _ => ⟨rfl, rfl, rfl, rfl, (by decide : ' ' ∉ ['s'])⟩
theorem faithfulM2 (v : Voucher sized) : (aroundM2 v).Faithful := fun _ _ => ⟨rfl, rfl, rfl, rfl, (by decide : ' ' ∉ ['s'])⟩

theorem names_of (e : Http.Event rv Mr) (h : RvServer.Names env.toRvEnv true Br rcfg some aead To0.Toy.encode guid e) : names e = true := by
  cases e with
  | request rq =>
    obtain ⟨to0d, to1d, t, h1, h2, h3⟩ := h
    exact brings_of h1 h2 h3
  | internal m => cases h
  | expire i => cases h

theorem awake (q : Http.Sent) : To0.Awake (arrivesR q) := ⟨rfl, rfl, _, rfl, by simp⟩

section
variable (v : Voucher sized)

theorem answered (e : Device.Op) (a : Device.Op.Ans env.toDevEnv e) (h : (⟨.app e, a⟩ : (Device.sig env.toDevEnv).Deed) ∈ T v) : a = answers e := by
  rcases List.mem_cons.1 h with h | h
  · cases h; rfl
  rcases List.mem_append.1 h with h | h
  · rcases List.mem_append.1 h with h | h
    · rcases List.mem_cons.1 h with h | h
      · cases h; rfl
      · obtain ⟨_, h⟩ := Http.run_answers aroundD _ _ e a h
        exact h
    · rcases List.mem_cons.1 h with h | h
      · cases h; rfl
      · obtain ⟨_, h⟩ := Http.run_answers (aroundM2 v) _ _ e a h
        exact h
  · cases List.mem_singleton.1 h; rfl

end

section
/-- A run in which the operating system answers in this way. -/
abbrev Ordinary (t : Trace (Device.sig env.toDevEnv)) : Prop :=
  ∀ (e : Device.Op) (a : Device.Op.Ans env.toDevEnv e), (⟨.app e, a⟩ : (Device.sig env.toDevEnv).Deed) ∈ t → a = answers e

variable {t : Trace (Device.sig env.toDevEnv)} (ht : Ordinary t)
include ht

theorem fortunate : Device.Fortunate env.toDevEnv (9 : UInt8) t where
  nonce o h := ⟨_, ht _ _ h, by simp⟩
  kex o h := ⟨_, _, ht _ _ h, by simp⟩
  sign pl o h := ⟨_, _, ht _ _ h, by simp, by simp, (by decide : ([9] == [(9 : UInt8)]) = true), fun _ _ => rfl⟩
  create p b h := ht _ _ h
  append p x b h := ht _ _ h
  remove p b h := ht _ _ h
  read p o h := ⟨_, cred, ht _ _ h, decCred_enc cred⟩
  os m o h := ⟨_, ht _ _ h⟩

theorem signs : To0.DeviceSigns env.toDevEnv (9 : UInt8) t := by
  intro pl o h
  exact ⟨_, _, ht _ _ h, by simp, by simp, (by decide : ([9] == [(9 : UInt8)]) = true), rfl⟩

theorem announces : Device.Announces env.toDevEnv SiClient.Toy.host t := by
  intro sub clevis o h x hx
  have hv : o = "toy".toList := by
    have h : some (some o) = (some (some "toy".toList) : Option (Option (List Char))) := ht _ _ h
    exact Option.some.inj (Option.some.inj h)
  subst hv
  have key : (SiClient.devmod SiClient.Toy.host "toy".toList (Device.announced sub clevis)).all (fun x => Device.Toy.leaf x.2.2 ||
      match x.2.2 with | .array l => l.all Device.Toy.leaf | _ => false) = true := by
    cases sub <;> cases clevis <;> decide +kernel
  have hx := List.all_eq_true.1 key x hx
  rcases Bool.or_eq_true _ _ |>.mp hx with hx | hx
  · exact Device.Toy.leaf_val _ hx
  · split at hx
    · rename_i l hl
      rw [hl]
      exact Device.Toy.array_val l (List.all_eq_true.1 hx)
    · cases hx

omit ht in
theorem instructs (sub clevis : Bool) : ∃ l, Device.Instructs env.toDevEnv Device.Toy.encode (fun _ => some ⟨none, none, some true⟩) cred.guid sub clevis l ∧
    Device.Follows SiClient.Toy.host t l := by
  refine ⟨rebootItems true, ⟨_, rfl, rfl, ?_, ?_, by decide +kernel⟩, ?_⟩
  · intro x hx
    simp only [rebootItems, List.mem_cons, List.not_mem_nil, or_false] at hx
    rcases hx with rfl | rfl <;> exact Device.Toy.leaf_val (.bool true) rfl
  · intro x hx
    simp only [rebootItems, List.mem_cons, List.not_mem_nil, or_false] at hx
    rcases hx with rfl | rfl <;> exact plain_of_known nofun
  · intro u res h _
    have e : SiClient.process SiClient.Toy.host (rebootItems true) = .ret (.ok (true, [])) := rfl
    rw [e] at h
    obtain ⟨-, rfl⟩ := Prog.ends_ret h
    exact ⟨_, rfl⟩

end

theorem interp_owner : ∃ io, Rendezvous.toInterpreted env.D .owner (env.directives ()) = .ok io ∧
    io.flatMap (Rendezvous.getUrls env.showIp) = ["http://rv:80"] := by
  have h : (match Rendezvous.toInterpreted env.D .owner (env.directives ()) with
    | .ok io => decide (io.flatMap (Rendezvous.getUrls env.showIp) = ["http://rv:80"])
    | _ => false) = true := by decide +kernel
  split at h
  · exact ⟨_, by assumption, of_decide_eq_true h⟩
  · cases h

theorem interp_device : ∃ i is, Rendezvous.toInterpreted env.D .device (env.directives ()) = .ok (i :: is) ∧
    Device.clientUrls (R := env.toDevEnv) i = some ["http://rv:80"] := by
  have h : (match Rendezvous.toInterpreted env.D .device (env.directives ()) with
    | .ok (i :: _) => decide (Device.clientUrls (R := env.toDevEnv) i = some ["http://rv:80"])
    | _ => false) = true := by decide +kernel
  split at h
  · exact ⟨_, _, by assumption, of_decide_eq_true h⟩
  · cases h

theorem owner_url (x : Hash) : ∃ as ous, env.decAddrs (env.encTo1 x) = some as ∧
    Device.to2Urls (R := env.toDevEnv) as = "http://owner:8081" :: ous :=
  ⟨_, [], rfl, by decide +kernel⟩

/-- The device's run. -/
theorem device_runs {v : Voucher sized} {x : Sign1} (h1 : (end1 v).2 = .ok (some x)) (h2 : (end2 v (blob v)).2 = .ok (some true)) :
    Prog.Ends (Device.main true aead place SiClient.Toy.host 1 : Proc (Device.sig env.toDevEnv) _ _) (T v) (.ok ()) := by
  have hx : blob v = x := by unfold blob; rw [h1]
  obtain ⟨i, is, hi, hu⟩ := interp_device
  have e1 : Prog.Ends (Device.getTo1d true aead cred ["http://rv:80"] : Proc (Device.sig env.toDevEnv) _ _)
      (Device.connected (R := env.toDevEnv) "http://rv:80" :: trace1 v) (.ok (some x)) := by
    rw [getTo1d_cons (R := env)]
    have := Prog.exec_ends (Http.answer aroundD) (begin1 v) asking
    have h1 : (Prog.exec (Http.answer aroundD) (begin1 v) asking).2 = .ok (some x) := h1
    rw [h1] at this
    exact .cons this
  have e2 : Prog.Ends (Device.tryAddrs true aead place SiClient.Toy.host loc cred x ["http://owner:8081"] : Proc (Device.sig env.toDevEnv) _ _)
      (Device.connected (R := env.toDevEnv) "http://owner:8081" :: trace2 v (blob v)) (.ok (some true)) := by
    rw [tryAddrs_cons (R := env), hx]
    rw [hx] at h2
    have := Prog.exec_ends (Http.answer (aroundM2 v)) (begin2 v) (meeting x)
    have h2 : (Prog.exec (Http.answer (aroundM2 v)) (begin2 v) (meeting x)).2 = .ok (some true) := h2
    rw [h2] at this
    exact .cons this
  have e3 : Prog.Ends (Device.reboot true : Proc (Device.sig env.toDevEnv) _ _) [⟨.app .reboot, some true⟩] (.ok ()) := .cons (.nil _)
  have hrv : Device.rvEntries (R := env.toDevEnv) cred = .ok (i :: is) := by
    unfold Device.rvEntries
    rw [show env.E.decRv cred.rvinfo = some () from rfl, Device.orErr, Res.bind_ok, hi]
    rfl
  exact device_ends (R := env) (n := 0) (l := loc) (by decide +kernel) (by decide +kernel) (decCred_enc cred) rfl rfl hrv hu e1 rfl e2 e3

theorem regroup1 {α : Type} (a b c d : α) (t1 t2 : List α) : a :: ((b :: t1 ++ c :: t2) ++ [d]) = [a] ++ b :: (t1 ++ c :: (t2 ++ [d])) := by simp
theorem regroup2 {α : Type} (a b c d : α) (t1 t2 : List α) : a :: ((b :: t1 ++ c :: t2) ++ [d]) = (a :: b :: t1) ++ c :: (t2 ++ [d]) := by simp

/-- The conversations of the run. -/
theorem legs {v : Voucher sized} (h1 : (trace1 v).all (fun d => !turnsB (R := env) d) = true)
    (h2 : (trace2 v (blob v)).all (fun d => !turnsB (R := env) d) = true) (t : Trace (Device.sig env.toDevEnv)) :
    (Leg (R := env) (T v) "http://rv:80" t → t = trace1 v) ∧ (Leg (R := env) (T v) "http://owner:8081" t → t = trace2 v (blob v)) := by
  have q1 : ∀ d ∈ trace1 v, ¬ Turns (R := env) d.1 := fun d hd h => by
    have := List.all_eq_true.1 h1 d hd
    rw [(turnsB_iff (R := env) d).2 h] at this
    cases this
  have q2 : ∀ d ∈ trace2 v (blob v), ¬ Turns (R := env) d.1 := fun d hd h => by
    have := List.all_eq_true.1 h2 d hd
    rw [(turnsB_iff (R := env) d).2 h] at this
    cases this
  have n1 : ∀ d ∈ trace1 v, ∀ u, d.1 ≠ (.app (.connect u) : (Device.sig env.toDevEnv).Eff) := fun d hd u e => q1 d hd (by rw [e]; trivial)
  have n2 : ∀ d ∈ trace2 v (blob v), ∀ u, d.1 ≠ (.app (.connect u) : (Device.sig env.toDevEnv).Eff) := fun d hd u e => q2 d hd (by rw [e]; trivial)
  constructor
  · intro h
    have e : T v = [⟨.app (.fs (.read loc.path)), some (encCred cred)⟩] ++ Device.connected (R := env.toDevEnv) "http://rv:80" :: (trace1 v ++
        (Device.connected (R := env.toDevEnv) "http://owner:8081" :: (trace2 v (blob v) ++ [⟨.app .reboot, some true⟩]))) := by
      exact regroup1 ..
    rw [e] at h
    refine leg_unique (R := env) ?_ q1 ?_ ?_ h
    · intro d hd
      rw [List.mem_singleton.1 hd]
      nofun
    · intro d hd
      rcases List.mem_cons.1 hd with rfl | hd
      · intro h
        injection h with h
        injection h with h
        exact absurd h (by decide)
      · rcases List.mem_append.1 hd with hd | hd
        · exact n2 d hd _
        · rw [List.mem_singleton.1 hd]
          nofun
    · intro d hd
      cases hd
      trivial
  · intro h
    have e : T v = (⟨.app (.fs (.read loc.path)), some (encCred cred)⟩ :: Device.connected (R := env.toDevEnv) "http://rv:80" :: trace1 v) ++
        Device.connected (R := env.toDevEnv) "http://owner:8081" :: (trace2 v (blob v) ++ [⟨.app .reboot, some true⟩]) := by
      exact regroup2 ..
    rw [e] at h
    refine leg_unique (R := env) ?_ q2 ?_ ?_ h
    · intro d hd
      rcases List.mem_cons.1 hd with rfl | hd
      · nofun
      rcases List.mem_cons.1 hd with rfl | hd
      · intro h
        injection h with h
        injection h with h
        exact absurd h (by decide)
      · exact n1 d hd _
    · intro d hd
      rw [List.mem_singleton.1 hd]
      nofun
    · intro d hd
      cases hd
      trivial

theorem events1 {v : Voucher sized} {e : Http.Event rv Mr} (h : e ∈ (end1 v).1.past) : e ∈ (end0 v).1.past ∨ ∃ q, e = .request (arrivesR q) := by
  unfold end1 at h
  generalize hp : asking = p at h
  rcases Http.run_events aroundD p (begin1 v) e h with h | ⟨_, q, h⟩
  · exact .inl h
  · exact .inr ⟨q, h⟩

/-- The hypotheses of `C78_voucher` and `C78_onboards_partial` are met: what the latter says for this device. -/
example : ∃ (v' : Voucher sized) (histo : List (Http.Event (own v') Empty)),
    Prog.Ends (Device.main true aead place SiClient.Toy.host 1 : Proc (Device.sig env.toDevEnv) _ _) (T v') (.ok ()) ∧
    (end0 v').2 = .ok (min cfg.period rcfg.maxWait) ∧
    Device.Recorded (R := env.toDevEnv) (c := true) (B := Bo v') (cfg := cfg) (idOf := some) (A := aead) (encode := Device.Toy.encode)
      (fun m _ => m.elim) ⟨fun _ => none, []⟩ cred.guid histo := by
  obtain ⟨v, s', hv, hs', M⟩ := manufactured
  have hr := runs
  cases hv' : sold with
  | none => rw [hv'] at hr; cases hr
  | some v' =>
    rw [hv'] at hr
    have hr : run v' = true := hr
    simp only [run, Bool.and_eq_true, decide_eq_true_eq] at hr
    obtain ⟨⟨⟨⟨⟨⟨⟨r1, r2⟩, r3⟩, r4⟩, r5⟩, r6⟩, r7⟩, r8⟩ := hr
    obtain ⟨x, hx⟩ : ∃ x, (end1 v').2 = .ok (some x) := by
      split at r5
      · exact ⟨_, by assumption⟩
      · cases r5
    obtain ⟨r, X⟩ := transferred hv hv'
    obtain ⟨io, hio, huo⟩ := interp_owner
    obtain ⟨i, is, hid, hu⟩ := interp_device
    -- the rendezvous server
    obtain ⟨hist, h1, h2⟩ := Http.talk_run (M := Mr) (RvServer.move env.toRvEnv Br) (Http.start Br.empty) aroundO faithfulO (reporting v') begin0 rfl none
    have h1' : (end0 v').1.past = hist := h1
    have hs0 := Http.run_server (M := Mr) (RvServer.move env.toRvEnv Br) (Http.start Br.empty) aroundO (reporting v') begin0 rfl
    have hs1 : (begin1 v').server = Http.replay (RvServer.move env.toRvEnv Br) (Http.start Br.empty) (begin1 v').past := hs0
    obtain ⟨hist', h3, h4⟩ := Http.talk_run (M := Mr) (RvServer.move env.toRvEnv Br) (Http.start Br.empty) aroundD faithfulD asking (begin1 v') hs1 none
    have h3' : (end1 v').1.past = hist ++ hist' := by rw [← h1']; exact h3
    have q0 : ∀ e ∈ hist, ∃ q, e = .request (arrivesR q) := by
      intro e hm
      rw [← h1'] at hm
      rcases Http.run_events aroundO _ _ _ hm with hm | ⟨_, q, rfl⟩
      · cases hm
      · exact ⟨q, rfl⟩
    have q1 : ∀ e ∈ hist ++ hist', ∃ q, e = .request (arrivesR q) := by
      intro e hm
      rw [← h3'] at hm
      rcases events1 hm with hm | h
      · exact q0 e (h1' ▸ hm)
      · exact h
    -- the owner's server
    obtain ⟨histo, h5, h6⟩ := Http.talk_run (M := Empty) (fun m _ => m.elim) ⟨fun _ => none, []⟩ (aroundM2 v') (faithfulM2 v') (meeting (blob v'))
      (begin2 v') rfl none
    have hrun := device_runs hx r6
    have G : Registered (R := env) true aead Br rcfg some To0.Toy.encode (fun _ => false) cfg To0.Toy.msgs v' [] hist (trace0 v') (end0 v').2 := by
      refine ⟨Prog.exec_ends _ _ _, h2, To0.Toy.delivered r1, ?_⟩
      intro rq hm
      obtain ⟨q, hq⟩ := q0 (.request rq) hm
      cases hq
      refine ⟨awake q, rfl, ?_⟩
      show 100 / second + 100 ≤ 253402300799
      have : 100 / second ≤ 100 := Nat.div_le_self ..
      omega
    have hlast : Lasts (R := env) true aead Br rcfg some To0.Toy.encode cfg cred.guid hist ([] ++ hist') := by
      intro g1 rq g2 eg hn e he
      have hn := names_of _ hn
      rw [h1', eg] at r3
      obtain ⟨k1, rfl⟩ := To0.Toy.last_of r3 hn
      simp only [List.nil_append] at he
      rw [h3', List.map_append, eg, r3] at r4
      have r4 : hist'.map names = [false, false] := by simpa using r4
      refine ⟨fun h => ?_, ?_⟩
      · have h := names_of _ h
        have : names e ∈ hist'.map names := List.mem_map_of_mem he
        rw [r4, h] at this
        simp at this
      · intro T hT
        obtain ⟨q, hq⟩ := q0 (.request rq) (eg ▸ List.mem_append_right _ (.head _))
        cases hq
        obtain ⟨q', rfl⟩ := q1 e (List.mem_append_right _ he)
        have hT : some 100 = some T := hT
        cases hT
        show 100 + second ≤ 100 + 100 * second
        omega
    have D : Runs (R := env) true aead (9 : UInt8) s' place SiClient.Toy.host loc 1 (T v') (.ok ()) := by
      refine ⟨hrun, by decide, by decide +kernel, by decide +kernel, ?_, ?_, fortunate (answered v'), signs (answered v'), announces (answered v'), fun x h => answered v' _ _ h⟩
      · intro x t e
        have := (List.cons.inj e).1
        cases this
        exact hs'.symm
      · exact To0.Toy.delivered r2
    have Q : Asks (R := env) true aead Br rcfg some To0.Toy.encode (fun _ => false) "http://rv:80" ([] ++ hist ++ []) hist' (T v') := by
      refine ⟨?_, ?_⟩
      · intro a ha
        rw [(legs r7 r8 a).1 ha, List.nil_append, List.append_nil, ← h1']
        exact h4
      · intro rq hm
        obtain ⟨q, hq⟩ := q1 (.request rq) (List.mem_append_right _ hm)
        cases hq
        exact awake q
    have O : Meets (R := env) true aead (Bo v') cfg some Device.Toy.encode (M := Empty) (fun m _ => m.elim) ⟨fun _ => none, []⟩ (fun _ => false)
        "http://owner:8081" cred.guid v' SiClient.Toy.host histo (T v') := by
      refine ⟨?_, false, ?_⟩
      · intro b hb
        rw [(legs r7 r8 b).2 hb]
        exact h6
      · intro g1 rq g2 e
        have hm : Http.Event.request rq ∈ (Prog.exec (Http.answer (aroundM2 v')) (begin2 v') (meeting (blob v'))).1.past := by
          rw [h5, e]
          exact List.mem_append_right _ (List.mem_append_right _ (.head _))
        rcases Http.run_requests (aroundM2 v') _ _ _ hm with hm | ⟨n, q, rfl⟩
        · cases hm
        · exact ⟨rfl, rfl, ⟨_, rfl, by simp⟩, ⟨_, _, rfl, by simp⟩, ⟨_, rfl, by simp⟩, rfl, rfl, rfl, rfl, instructs⟩
    obtain ⟨-, c1, c2, c3, -⟩ := C78_onboards_partial (R := env) laws M X hio huo hid hu (To0.db_keeping fun _ => rfl) (fun _ hm => absurd hm List.not_mem_nil) G hlast D Q owner_url O
    exact ⟨v', histo, hrun, c1, c3⟩

end Toy

end Verif.Life
