import Verif.Props.Retry
import Verif.Props.LifeExample
/-!
The device of `Props/LifeExample` again: this time the rendezvous server's last answer gets lost. The device tells the server that
something went wrong, waits, and begins anew. The hypotheses of C79 are met.
-/
namespace Verif.Life
open Verif Verif.Voucher Verif.Store Verif.Types

section
variable {R : Whole}

/-- All conversations of a run. -/
def legsOf : Trace (Device.sig R.toDevEnv) → List (String × Trace (Device.sig R.toDevEnv))
  | [] => []
  | d :: r =>
    match d.1 with
    | .app (.connect u) => (u, r.takeWhile fun d => !turnsB d) :: legsOf r
    | _ => legsOf r

theorem takeWhile_leg {t post : Trace (Device.sig R.toDevEnv)} (ht : ∀ d ∈ t, ¬ Turns d.1) (hp : ∀ d ∈ post.head?, Turns d.1) :
    (t ++ post).takeWhile (fun d => !turnsB d) = t := by
  induction t with
  | nil =>
    cases post with
    | nil => rfl
    | cons d r => rw [List.nil_append, List.takeWhile_cons, (turnsB_iff d).2 (hp d rfl)]; rfl
  | cons d t ih =>
    rw [List.cons_append, List.takeWhile_cons, if_pos, ih (fun e he => ht e (.tail _ he))]
    cases h : turnsB d with
    | false => rfl
    | true => exact absurd ((turnsB_iff d).1 h) (ht d (.head _))

theorem legsOf_leg {T t : Trace (Device.sig R.toDevEnv)} {u : String} (h : Leg T u t) : (u, t) ∈ legsOf T := by
  obtain ⟨pre, post, rfl, ht, hp⟩ := h
  induction pre with
  | nil =>
    show (u, t) ∈ (u, (t ++ post).takeWhile fun d => !turnsB d) :: legsOf (t ++ post)
    rw [takeWhile_leg ht hp]
    exact .head _
  | cons d pre ih =>
    rw [List.cons_append, legsOf]
    split
    · exact .tail _ ih
    · exact ih

theorem legsOf_quiet {t r : Trace (Device.sig R.toDevEnv)} (ht : ∀ d ∈ t, ¬ Turns d.1) : legsOf (t ++ r) = legsOf r := by
  induction t with
  | nil => rfl
  | cons d t ih =>
    rw [List.cons_append, legsOf]
    split
    · rename_i u e
      exact absurd (by rw [e]; trivial) (ht d (.head _))
    · exact ih fun e he => ht e (.tail _ he)

theorem legsOf_connected {u : String} {t r : Trace (Device.sig R.toDevEnv)} (ht : ∀ d ∈ t, ¬ Turns d.1) (hr : ∀ d ∈ r.head?, Turns d.1) :
    legsOf (Device.connected u :: (t ++ r)) = (u, t) :: legsOf r := by
  show (u, (t ++ r).takeWhile fun d => !turnsB d) :: legsOf (t ++ r) = _
  rw [takeWhile_leg ht hr, legsOf_quiet ht]

/-- A round that succeeds. -/
theorem round_ends {c : Bool} {A : Http.Aead} {w : Credential.Surroundings} {h : SiClient.Host} {l : Credential.Location} {cr : Credential.Cred}
    {n : Nat} {i : Rendezvous.Interp} {is : List Rendezvous.Interp} {us : List String} (hurl : Device.clientUrls (R := R.toDevEnv) i = some us)
    {t1 t2 : Trace (Device.sig R.toDevEnv)} {x : Sign1} (h1 : Prog.Ends (Device.getTo1d c A cr us) t1 (.ok (some x)))
    {as : List Device.Addr} (haddr : R.decAddrs x.payload = some as) {b : Bool}
    (h2 : Prog.Ends (Device.tryAddrs c A w h l cr x (Device.to2Urls (R := R.toDevEnv) as)) t2 (.ok (some b))) :
    Prog.Ends (Device.onboard c A w h l cr (i :: is) (n + 1)) (t1 ++ t2) (.ok b) := by
  rw [onboard_succ, tryEntries_cons, hurl]
  have h4 : Prog.Ends (Device.getTo1d c A cr us >>= follow w h l cr c A is : Proc (Device.sig R.toDevEnv) _ _) (t1 ++ t2) (.ok (some b)) := by
    refine bind_ok h1 ?_
    unfold follow
    dsimp only
    rw [haddr]
    have := bind_ok h2 (f := fun (s : Option Bool) => match s with
      | some b => (pure (some b) : Proc (Device.sig R.toDevEnv) Device.DevErr (Option Bool))
      | none => Device.tryEntries c A w h l cr is) (.nil _)
    rw [List.append_nil] at this
    exact this
  have := bind_ok h4 (f := again w h l cr c A (i :: is) n) (.nil _)
  rw [List.append_nil] at this
  exact this

/-- A round in which no rendezvous server answers, and the following ones. -/
theorem round_fails {c : Bool} {A : Http.Aead} {w : Credential.Surroundings} {h : SiClient.Host} {l : Credential.Location} {cr : Credential.Cred}
    {n : Nat} {i : Rendezvous.Interp} {us : List String} (hurl : Device.clientUrls (R := R.toDevEnv) i = some us)
    {t1 t2 : Trace (Device.sig R.toDevEnv)} {r : Res Device.DevErr Bool} (h1 : Prog.Ends (Device.getTo1d c A cr us) t1 (.ok none))
    (h2 : Prog.Ends (Device.onboard c A w h l cr [i] n) t2 r) :
    Prog.Ends (Device.onboard c A w h l cr [i] (n + 1)) (t1 ++ ⟨.app (.sleep i.delay), ()⟩ :: t2) r := by
  rw [onboard_succ, tryEntries_cons, hurl]
  have h4 : Prog.Ends (Device.getTo1d c A cr us >>= follow w h l cr c A [] : Proc (Device.sig R.toDevEnv) _ _) t1 (.ok none) := by
    have := bind_ok h1 (f := follow w h l cr c A []) (.nil _)
    rw [List.append_nil] at this
    exact this
  exact bind_ok h4 (f := again w h l cr c A [i] n) (.cons h2)

/-- The run, from its rounds. -/
theorem main_ends {c : Bool} {A : Http.Aead} {w : Credential.Surroundings} {h : SiClient.Host} {l : Credential.Location} {cr : Credential.Cred}
    {n : Nat} (hm : w.exists? (Device.markerPath w) = false) (hf : Credential.find w = some (.ok l))
    (hdec : R.codec.dec (R.codec.enc cr) = some cr) (hact : cr.active = true) (hver : cr.version = 101)
    {is : List Rendezvous.Interp} (hrv : Device.rvEntries (R := R.toDevEnv) cr = .ok is)
    {t1 t3 : Trace (Device.sig R.toDevEnv)} {b : Bool} (h1 : Prog.Ends (Device.onboard c A w h l cr is n) t1 (.ok b))
    (h3 : Prog.Ends (Device.reboot b) t3 (.ok ())) :
    Prog.Ends (Device.main c A w h n) (⟨.app (.fs (.read l.path)), some (R.codec.enc cr)⟩ :: (t1 ++ t3)) (.ok ()) := by
  unfold Device.main
  rw [if_neg (by simp [hm]), hf]
  refine Prog.Steps.cons (S := Device.sig R.toDevEnv) (e := .app (.fs (.read l.path))) (a := some (R.codec.enc cr)) ?_
  have he : Prog.Ends (Device.start c A w h l cr n) (t1 ++ t3) (.ok ()) := by
    unfold Device.start
    rw [if_neg (by simp [hact]), if_neg (by simp [hver]), hrv]
    change Prog.Ends (Device.onboard c A w h l cr is n >>= Device.reboot : Proc (Device.sig R.toDevEnv) _ _) _ _
    exact bind_ok h1 h3
  have hk : Prog.Ends (Proc.mapErr (fun _ => Device.DevErr.io) (Device.files (Proc.some? Credential.CredErr.parse (R.codec.dec (R.codec.enc cr)))) >>=
      fun cr => Device.start c A w h l cr n : Proc (Device.sig R.toDevEnv) _ _) (t1 ++ t3) (.ok ()) := by
    rw [hdec]
    exact he
  exact hk

end

/-- What happens afterwards does not matter. -/
theorem talk_more {Sv : Http.Server} {M : Type} {X : Sig} {mv : M → Sv.W → Sv.W} {σ0 : Http.St Sv} {kdf : Http.Request Sv → Bool}
    {i : Option Sv.Id} {p h : List (Http.Event Sv M)} {t : Trace (Http.netSig X)} (ht : Http.Talk mv σ0 kdf i p h t) (h' : List (Http.Event Sv M)) :
    Http.Talk mv σ0 kdf i p (h ++ h') t := by
  induction ht with
  | done => exact .done
  | other e ha _ ih => exact .other e ha ih
  | iv x _ ih => exact .iv x ih
  | app x a _ ih => exact .app x a ih
  | lost s _ ih => exact .lost s ih
  | served s rq r hc hr _ ih => exact .served s rq r hc hr ih

namespace Toy
open Verif.RvServer.Toy (aead guid)
open Verif.Device.Toy (sized)
open Verif.ServiceInfo

/-- The second answer gets lost. -/
def aroundL : Http.Around rv (Device.ops env.toDevEnv) Unit :=
  ⟨fun _ q => arrivesR q, fun n => if n = 1 then .mute else .good, fun _ => [], fun _ e => ((), answers e), fun _ => false⟩

section
variable (v : Voucher sized)

def endL : Http.Now rv Mr Unit × Res Device.DevErr (Option Sign1) := Prog.exec (Http.answer aroundL) (begin1 v) asking
def traceL : Trace (Device.sig env.toDevEnv) := Prog.doings (Http.answer aroundL) (begin1 v) asking
def beginB : Http.Now rv Mr Unit := ⟨0, (endL v).1.past, (endL v).1.server, ()⟩
def endB : Http.Now rv Mr Unit × Res Device.DevErr (Option Sign1) := Prog.exec (Http.answer aroundD) (beginB v) asking
def traceB : Trace (Device.sig env.toDevEnv) := Prog.doings (Http.answer aroundD) (beginB v) asking

/-- The redirect blob that the device gets. -/
def blobB : Sign1 :=
  match (endB v).2 with
  | .ok (some x) => x
  | _ => ⟨[], [], [], []⟩

/-- The run of the device, with a pause of `d` seconds. -/
def TB (d : Nat) : Trace (Device.sig env.toDevEnv) :=
  ⟨.app (.fs (.read loc.path)), some (encCred cred)⟩ :: (((Device.connected (R := env.toDevEnv) "http://rv:80" :: traceL v) ++
    ⟨.app (.sleep d), ()⟩ :: ((Device.connected (R := env.toDevEnv) "http://rv:80" :: traceB v) ++
    (Device.connected (R := env.toDevEnv) "http://owner:8081" :: trace2 v (blobB v)))) ++ [⟨.app .reboot, some true⟩])

/-- Messages are small, headers printable. -/
def neat : (Device.sig env.toDevEnv).Deed → Bool
  | ⟨.net s, o⟩ => decide (s.body.length ≤ 16384) && match (show Option Http.NetReply from o) with
    | some q => decide (q.auth ≠ some none)
    | none => true
  | _ => true

/-- The run, and what happens in it. -/
def runB : Bool :=
  (trace0 v).all To0.Toy.small && (TB v 0).all neat && decide (losses (R := env) (TB v 0) = 1) &&
  decide ((end0 v).1.past.map names = [false, true]) &&
  decide ((endB v).1.past.map names = [false, true, false, false, false, false, false]) &&
  decide ((endL v).2 = .ok none) &&
  (match (endB v).2 with | .ok (some _) => true | _ => false) &&
  decide ((end2 v (blobB v)).2 = .ok (some true)) &&
  (traceL v).all (fun d => !turnsB (R := env) d) && (traceB v).all (fun d => !turnsB (R := env) d) &&
  (trace2 v (blobB v)).all (fun d => !turnsB (R := env) d)

end

theorem runsB : (match sold with | some v => runB v | none => false) = true := by decide +kernel

attribute [local irreducible] second Prog.exec Prog.doings

theorem faithfulL : aroundL.Faithful := fun _ _ => ⟨rfl, rfl, rfl, rfl, (by decide : ' ' ∉ ['s'])⟩

theorem interp_device1 : ∃ i, Rendezvous.toInterpreted env.D .device (env.directives ()) = .ok [i] ∧
    Device.clientUrls (R := env.toDevEnv) i = some ["http://rv:80"] := by
  have h : (match Rendezvous.toInterpreted env.D .device (env.directives ()) with
    | .ok [i] => decide (Device.clientUrls (R := env.toDevEnv) i = some ["http://rv:80"])
    | _ => false) = true := by decide +kernel
  split at h
  · exact ⟨_, by assumption, of_decide_eq_true h⟩
  · cases h

theorem owner_urls (x : Hash) : ∃ as, env.decAddrs (env.encTo1 x) = some as ∧ Device.to2Urls (R := env.toDevEnv) as = ["http://owner:8081"] :=
  ⟨_, rfl, by decide +kernel⟩

theorem mem_three {α β : Type} {u a b c : α} {t x y z : β} (h : (u, t) ∈ [(a, x), (b, y), (c, z)]) :
    (u = a ∧ t = x) ∨ (u = b ∧ t = y) ∨ (u = c ∧ t = z) := by simpa using h

theorem all_swap {α : Type} (p : α → Bool) {x y : α} (h : p x = p y) (a : α) (t u z : List α) :
    (a :: ((t ++ x :: u) ++ z)).all p = (a :: ((t ++ y :: u) ++ z)).all p := by simp [h]

theorem filter_swap {α : Type} (p : α → Bool) {x y : α} (hx : p x = false) (hy : p y = false) (a : α) (t u z : List α) :
    ((a :: ((t ++ x :: u) ++ z)).filter p).length = ((a :: ((t ++ y :: u) ++ z)).filter p).length := by
  simp [List.filter_cons, hx, hy]

abbrev pause (d : Nat) : (Device.sig env.toDevEnv).Deed := ⟨.app (.sleep d), ()⟩

theorem neat_TB (v : Voucher sized) (d : Nat) : (TB v d).all neat = (TB v 0).all neat := by
  unfold TB
  exact all_swap neat (x := pause d) (y := pause 0) rfl _ _ _ _

theorem losses_TB (v : Voucher sized) (d : Nat) : losses (R := env) (TB v d) = losses (R := env) (TB v 0) := by
  unfold TB losses
  exact filter_swap (lost (R := env)) (x := pause d) (y := pause 0) rfl rfl _ _ _ _

theorem answeredB (v : Voucher sized) (d : Nat) : Ordinary (TB v d) := by
  intro e a h
  rcases List.mem_cons.1 h with h | h
  · cases h; rfl
  rcases List.mem_append.1 h with h | h
  · rcases List.mem_append.1 h with h | h
    · rcases List.mem_cons.1 h with h | h
      · cases h; rfl
      · obtain ⟨_, h⟩ := Http.run_answers aroundL _ _ e a h
        exact h
    · rcases List.mem_cons.1 h with h | h
      · cases h; rfl
      rcases List.mem_append.1 h with h | h
      · rcases List.mem_cons.1 h with h | h
        · cases h; rfl
        · obtain ⟨_, h⟩ := Http.run_answers aroundD _ _ e a h
          exact h
      · rcases List.mem_cons.1 h with h | h
        · cases h; rfl
        · obtain ⟨_, h⟩ := Http.run_answers (aroundM2 v) _ _ e a h
          exact h
  · cases List.mem_singleton.1 h; rfl

theorem regroupB {α : Type} (a b c d e f : α) (t1 t2 t3 : List α) :
    a :: (((b :: t1) ++ c :: ((d :: t2) ++ (e :: t3))) ++ [f]) = [a] ++ (b :: (t1 ++ c :: (d :: (t2 ++ e :: (t3 ++ [f]))))) := by simp

theorem legsB {v : Voucher sized} {d : Nat} (h0 : (traceL v).all (fun d => !turnsB (R := env) d) = true)
    (h1 : (traceB v).all (fun d => !turnsB (R := env) d) = true) (h2 : (trace2 v (blobB v)).all (fun d => !turnsB (R := env) d) = true) :
    legsOf (R := env) (TB v d) = [("http://rv:80", traceL v), ("http://rv:80", traceB v), ("http://owner:8081", trace2 v (blobB v))] := by
  have q : ∀ {t : Trace (Device.sig env.toDevEnv)}, t.all (fun d => !turnsB (R := env) d) = true → ∀ d ∈ t, ¬ Turns (R := env) d.1 := by
    intro t ht d hd h
    have := List.all_eq_true.1 ht d hd
    rw [(turnsB_iff (R := env) d).2 h] at this
    cases this
  unfold TB
  rw [regroupB, legsOf_quiet (R := env), legsOf_connected (R := env) (q h0)]
  · show _ :: legsOf (R := env) (Device.connected (R := env.toDevEnv) "http://rv:80" :: _) = _
    rw [legsOf_connected (R := env) (q h1), legsOf_connected (R := env) (q h2)]
    · rfl
    · intro d hd
      cases hd
      trivial
    · intro d hd
      cases hd
      trivial
  · intro d hd
    cases hd
    trivial
  · intro d hd
    rw [List.mem_singleton.1 hd]
    exact id

/-- The device's run. -/
theorem device_runsB {v : Voucher sized} {x : Sign1} (h0 : (endL v).2 = .ok none) (h1 : (endB v).2 = .ok (some x))
    (h2 : (end2 v (blobB v)).2 = .ok (some true)) {i : Rendezvous.Interp}
    (hi : Rendezvous.toInterpreted env.D .device (env.directives ()) = .ok [i])
    (hu : Device.clientUrls (R := env.toDevEnv) i = some ["http://rv:80"]) :
    Prog.Ends (Device.main true aead place SiClient.Toy.host 2 : Proc (Device.sig env.toDevEnv) _ _) (TB v i.delay) (.ok ()) := by
  have hx : blobB v = x := by unfold blobB; rw [h1]
  have e0 : Prog.Ends (Device.getTo1d true aead cred ["http://rv:80"] : Proc (Device.sig env.toDevEnv) _ _)
      (Device.connected (R := env.toDevEnv) "http://rv:80" :: traceL v) (.ok none) := by
    rw [getTo1d_cons (R := env)]
    have := Prog.exec_ends (Http.answer aroundL) (begin1 v) asking
    have h0 : (Prog.exec (Http.answer aroundL) (begin1 v) asking).2 = .ok none := h0
    rw [h0] at this
    exact .cons this
  have e1 : Prog.Ends (Device.getTo1d true aead cred ["http://rv:80"] : Proc (Device.sig env.toDevEnv) _ _)
      (Device.connected (R := env.toDevEnv) "http://rv:80" :: traceB v) (.ok (some x)) := by
    rw [getTo1d_cons (R := env)]
    have := Prog.exec_ends (Http.answer aroundD) (beginB v) asking
    have h1 : (Prog.exec (Http.answer aroundD) (beginB v) asking).2 = .ok (some x) := h1
    rw [h1] at this
    exact .cons this
  have e2 : Prog.Ends (Device.tryAddrs true aead place SiClient.Toy.host loc cred x ["http://owner:8081"] : Proc (Device.sig env.toDevEnv) _ _)
      (Device.connected (R := env.toDevEnv) "http://owner:8081" :: trace2 v (blobB v)) (.ok (some true)) := by
    rw [tryAddrs_cons (R := env), hx]
    rw [hx] at h2
    have := Prog.exec_ends (Http.answer (aroundM2 v)) (begin2 v) (meeting x)
    have h2 : (Prog.exec (Http.answer (aroundM2 v)) (begin2 v) (meeting x)).2 = .ok (some true) := h2
    rw [h2] at this
    exact .cons this
  have e3 : Prog.Ends (Device.reboot true : Proc (Device.sig env.toDevEnv) _ _) [⟨.app .reboot, some true⟩] (.ok ()) := .cons (.nil _)
  have hrv : Device.rvEntries (R := env.toDevEnv) cred = .ok [i] := by
    unfold Device.rvEntries
    rw [show env.E.decRv cred.rvinfo = some () from rfl, Device.orErr, Res.bind_ok, hi]
    rfl
  exact main_ends (R := env) (n := 2) (l := loc) (by decide +kernel) (by decide +kernel) (decCred_enc cred) rfl rfl hrv
    (round_fails (R := env) hu e0 (round_ends (R := env) (n := 0) hu e1 rfl e2)) e3

theorem serverB (v : Voucher sized) (h : (begin1 v).server = Http.replay (RvServer.move env.toRvEnv Br) (Http.start Br.empty) (begin1 v).past) :
    (beginB v).server = Http.replay (RvServer.move env.toRvEnv Br) (Http.start Br.empty) (beginB v).past := by
  unfold beginB endL
  exact Http.run_server (M := Mr) (RvServer.move env.toRvEnv Br) (Http.start Br.empty) aroundL asking (begin1 v) h

/-- The hypotheses of `C79_retries_partial` are met: what it says for this device. -/
example : ∃ (v' : Voucher sized) (d : Nat) (histo : List (Http.Event (own v') Empty)),
    Prog.Ends (Device.main true aead place SiClient.Toy.host 2 : Proc (Device.sig env.toDevEnv) _ _) (TB v' d) (.ok ()) ∧
    losses (R := env) (TB v' d) = 1 ∧
    Device.Recorded (R := env.toDevEnv) (c := true) (B := Bo v') (cfg := cfg) (idOf := some) (A := aead) (encode := Device.Toy.encode)
      (fun m _ => m.elim) ⟨fun _ => none, []⟩ cred.guid histo := by
  obtain ⟨v, s', hv, hs', M⟩ := manufactured
  have hr := runsB
  cases hv' : sold with
  | none => rw [hv'] at hr; cases hr
  | some v' =>
    rw [hv'] at hr
    have hr : runB v' = true := hr
    simp only [runB, Bool.and_eq_true, decide_eq_true_eq] at hr
    obtain ⟨⟨⟨⟨⟨⟨⟨⟨⟨⟨r1, r2⟩, r2'⟩, r3⟩, r4⟩, r5'⟩, r5⟩, r6⟩, r7'⟩, r7⟩, r8⟩ := hr
    obtain ⟨x, hx⟩ : ∃ x, (endB v').2 = .ok (some x) := by
      split at r5
      · rename_i x hx
        exact ⟨x, hx⟩
      · cases r5
    obtain ⟨r, X⟩ := transferred hv hv'
    obtain ⟨io, hio, huo⟩ := interp_owner
    obtain ⟨i, hid, hu⟩ := interp_device1
    -- the rendezvous server
    obtain ⟨hist, h1, h2⟩ := Http.talk_run (M := Mr) (RvServer.move env.toRvEnv Br) (Http.start Br.empty) aroundO faithfulO (reporting v') begin0 rfl none
    have h1' : (end0 v').1.past = hist := h1
    have hs0 := Http.run_server (M := Mr) (RvServer.move env.toRvEnv Br) (Http.start Br.empty) aroundO (reporting v') begin0 rfl
    have hs1 : (begin1 v').server = Http.replay (RvServer.move env.toRvEnv Br) (Http.start Br.empty) (begin1 v').past := hs0
    obtain ⟨histL, h3, h4⟩ := Http.talk_run (M := Mr) (RvServer.move env.toRvEnv Br) (Http.start Br.empty) aroundL faithfulL asking (begin1 v') hs1 none
    have h3' : (endL v').1.past = hist ++ histL := by rw [← h1']; exact h3
    have hs3 := serverB v' hs1
    obtain ⟨histB, h3b, h4b⟩ := Http.talk_run (M := Mr) (RvServer.move env.toRvEnv Br) (Http.start Br.empty) aroundD faithfulD asking (beginB v') hs3 none
    have h3b' : (endB v').1.past = hist ++ (histL ++ histB) := by rw [← List.append_assoc, ← h3']; exact h3b
    have q0 : ∀ e ∈ hist, ∃ q, e = .request (arrivesR q) := by
      intro e hm
      rw [← h1'] at hm
      rcases Http.run_events aroundO _ _ _ hm with hm | ⟨_, q, rfl⟩
      · cases hm
      · exact ⟨q, rfl⟩
    have q1 : ∀ e ∈ hist ++ histL, ∃ q, e = .request (arrivesR q) := by
      intro e hm
      rw [← h3'] at hm
      rcases Http.run_events aroundL _ _ _ hm with hm | ⟨_, q, rfl⟩
      · exact q0 e (h1' ▸ hm)
      · exact ⟨q, rfl⟩
    have q2 : ∀ e ∈ hist ++ (histL ++ histB), ∃ q, e = .request (arrivesR q) := by
      intro e hm
      rw [← h3b'] at hm
      rcases Http.run_events aroundD _ _ _ hm with hm | ⟨_, q, rfl⟩
      · exact q1 e (h3' ▸ hm)
      · exact ⟨q, rfl⟩
    -- the owner's server
    obtain ⟨histo, h5, h6⟩ := Http.talk_run (M := Empty) (fun m _ => m.elim) ⟨fun _ => none, []⟩ (aroundM2 v') (faithfulM2 v') (meeting (blobB v'))
      (begin2 v') rfl none
    have hrun := device_runsB r5' hx r6 hid hu
    have G : Registered (R := env) true aead Br rcfg some To0.Toy.encode (fun _ => false) cfg To0.Toy.msgs v' [] hist (trace0 v') (end0 v').2 := by
      refine ⟨Prog.exec_ends _ _ _, h2, To0.Toy.delivered r1, ?_⟩
      intro rq hm
      obtain ⟨q, hq⟩ := q0 (.request rq) hm
      cases hq
      refine ⟨awake q, rfl, ?_⟩
      show 100 / second + 100 ≤ 253402300799
      have : 100 / second ≤ 100 := Nat.div_le_self ..
      omega
    have hlast : Lasts (R := env) true aead Br rcfg some To0.Toy.encode cfg cred.guid hist (histL ++ histB) := by
      intro g1 rq g2 eg hn e he
      have hn := names_of _ hn
      rw [h1', eg] at r3
      obtain ⟨k1, rfl⟩ := To0.Toy.last_of r3 hn
      rw [h3b', List.map_append, eg, r3] at r4
      have r4 : (histL ++ histB).map names = [false, false, false, false, false] := by simpa using r4
      refine ⟨fun h => ?_, ?_⟩
      · have h := names_of _ h
        have : names e ∈ (histL ++ histB).map names := List.mem_map_of_mem he
        rw [r4, h] at this
        simp at this
      · intro T hT
        obtain ⟨q, hq⟩ := q0 (.request rq) (eg ▸ List.mem_append_right _ (.head _))
        cases hq
        obtain ⟨q', rfl⟩ := q2 e (List.mem_append_right _ he)
        have hT : some 100 = some T := hT
        cases hT
        show 100 + second ≤ 100 + 100 * second
        omega
    have r2 := (neat_TB v' i.delay).trans r2
    have r2' := (losses_TB v' i.delay).trans r2'
    have D : Tries (R := env) true aead (9 : UInt8) s' place SiClient.Toy.host loc 2 (TB v' i.delay) (.ok ()) := by
      have ha := answeredB v' i.delay
      refine ⟨hrun, by decide +kernel, by decide +kernel, ?_, ?_, ?_, fortunate ha, signs ha, announces ha, fun x h => ha _ _ h⟩
      · intro x t e
        have := (List.cons.inj e).1
        cases this
        exact hs'.symm
      · intro s o h
        have := List.all_eq_true.1 r2 _ h
        simp only [neat, Bool.and_eq_true, decide_eq_true_eq] at this
        exact this.1
      · intro s q h
        have := List.all_eq_true.1 r2 _ h
        simp only [neat, Bool.and_eq_true, decide_eq_true_eq] at this
        exact this.2
    have hlegs := legsB (d := i.delay) r7' r7 r8
    have Q : AsksAt (R := env) true aead Br rcfg some To0.Toy.encode (fun _ => false) "http://rv:80" ([] ++ hist) (histL ++ histB) (TB v' i.delay) := by
      refine ⟨?_⟩
      intro a ha
      have ha := legsOf_leg (R := env) ha
      rw [hlegs] at ha
      have ha := mem_three ha
      rcases ha with ⟨-, rfl⟩ | ⟨-, rfl⟩ | ⟨e, -⟩
      · refine ⟨[], histL ++ histB, rfl, ?_⟩
        rw [List.nil_append, List.append_nil, ← h1']
        exact talk_more h4 _
      · refine ⟨histL, histB, rfl, ?_⟩
        rw [List.nil_append, ← h3']
        exact h4b
      · exact absurd e (by decide)
    have O : MeetsAt (R := env) true aead (Bo v') cfg some Device.Toy.encode (M := Empty) (fun m _ => m.elim) ⟨fun _ => none, []⟩ (fun _ => false)
        "http://owner:8081" histo (TB v' i.delay) := by
      refine ⟨?_⟩
      intro b hb
      have hb := legsOf_leg (R := env) hb
      rw [hlegs] at hb
      have hb := mem_three hb
      rcases hb with ⟨e, -⟩ | ⟨e, -⟩ | ⟨-, rfl⟩
      · exact absurd e (by decide)
      · exact absurd e (by decide)
      · exact ⟨[], histo, rfl, h6⟩
    have S : ∃ flag, ∀ g1 rq g2, histo = g1 ++ .request rq :: g2 →
        Device.Serves (R := env.toDevEnv) (c := true) (B := Bo v') (cfg := cfg) (idOf := some) (A := aead) (encode := Device.Toy.encode)
          (fun _ => false) flag cred.guid v' SiClient.Toy.host (TB v' i.delay)
          (Http.replay (M := Empty) (fun m _ => m.elim) ⟨fun _ => none, []⟩ g1) rq := by
      refine ⟨false, ?_⟩
      intro g1 rq g2 e
      have hm : Http.Event.request rq ∈ (Prog.exec (Http.answer (aroundM2 v')) (begin2 v') (meeting (blobB v'))).1.past := by
        rw [h5, e]
        exact List.mem_append_right _ (List.mem_append_right _ (.head _))
      rcases Http.run_requests (aroundM2 v') _ _ _ hm with hm | ⟨n, q, rfl⟩
      · cases hm
      · exact ⟨rfl, rfl, ⟨_, rfl, by simp⟩, ⟨_, _, rfl, by simp⟩, ⟨_, rfl, by simp⟩, rfl, rfl, rfl, rfl, instructs⟩
    obtain ⟨-, -, -, c3, -⟩ := C79_retries_partial (R := env) laws M X hio huo hid ⟨i, .head _, _, _, hu⟩ (To0.db_keeping fun _ => rfl) (fun _ hm => absurd hm List.not_mem_nil) G hlast D (by rw [r2']; decide)
      (by
        intro j hj us hus u hm
        rw [List.mem_singleton.1 hj, hu] at hus
        cases hus
        rw [List.mem_singleton.1 hm]
        exact Q)
      (by
        intro rq hm
        obtain ⟨q, hq⟩ := q2 (.request rq) (List.mem_append_right _ hm)
        cases hq
        exact awake q)
      (ous := ["http://owner:8081"]) nofun owner_urls (fun ou hm => by rw [List.mem_singleton.1 hm]; exact O) S
    exact ⟨v', i.delay, histo, hrun, r2', c3⟩

end Toy

end Verif.Life
