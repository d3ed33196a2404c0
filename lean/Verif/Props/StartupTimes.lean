import Verif.Props.Startup
import Verif.Props.To0
import Verif.Props.OwnerRenewal
/-!
**C93**: registrations last as long as the settings of the two servers say.
-/
namespace Verif.Startup
open Verif Verif.Settings

/-! ### Specification -/

/-- The settings give the number `n` for a name; if they have no value for it, it is `d`. -/
def Number (S : Scalars) (v : Val) (name : String) (d n : Nat) : Prop :=
  (Has S v name → ∃ s, v.at [name] = some s ∧ S.u32 s = some n) ∧ (¬ Has S v name → n = d)

/-! ### Proofs -/

section
variable {R : OwnerServer.OwnerEnv} {S : Scalars} {W : World R} {v : Val} {rest : Bool}

theorem u32Of_ok {x : Val} {n : Nat} (h : u32Of S x = .ok n) : ∃ s, x = .leaf s ∧ S.u32 s = some n := by
  cases x with
  | table l => cases h
  | leaf s =>
    simp only [u32Of] at h
    cases hq : S.u32 s with
    | none => rw [hq] at h; cases h
    | some m =>
      rw [hq] at h
      cases h
      exact ⟨s, rfl, hq⟩

theorem number_of {name : String} {d : Nat} {o : Option Nat} (h : optional S (u32Of S) v name = .ok o) : Number S v name d (o.getD d) := by
  constructor
  · intro hh
    obtain ⟨x, n, hx, hn, rfl⟩ := optional_has h hh
    obtain ⟨s, rfl, hs⟩ := u32Of_ok hn
    exact ⟨s, at_of_field hx, hs⟩
  · intro hh
    rw [optional_hasnt hh] at h
    cases h
    rfl

theorem startupTimes_eq {period window : Option Nat} {p w : Nat} (h : OwnerServer.startupTimes period window = some (p, w)) :
    p = period.getD 600 ∧ w = window.getD 61 := by
  unfold OwnerServer.startupTimes at h
  simp only at h
  split at h
  · cases h
  split at h
  · cases h
  split at h
  · cases h
  split at h
  · cases h
  simp only [Option.some.injEq, Prod.mk.injEq] at h
  exact ⟨h.1.symm, h.2.symm⟩

/-- **C93**, owner server: if it starts, it registers for the period of the settings (600 seconds if there is none) and renews in the
window of the settings (61 seconds); the window is longer than the minute between two checks and shorter than the period. -/
theorem C93_owner {owner2 : R.E.Priv × R.E.Pub} {cfg : OwnerServer.Config R} (h : owner S W rest owner2 v = .ok cfg) :
    Number S v "ov_registration_period" 600 cfg.period ∧ Number S v "ov_re_registration_window" 61 cfg.window ∧
    60 < cfg.window ∧ cfg.window < cfg.period := by
  obtain ⟨d, h1, h⟩ := Res.bind_eq_ok.1 h
  obtain ⟨k, h2, h⟩ := Res.bind_eq_ok.1 h
  obtain ⟨p, h3, h⟩ := Res.bind_eq_ok.1 h
  obtain ⟨e, h4, h⟩ := Res.bind_eq_ok.1 h
  obtain ⟨w, h5, h⟩ := Res.bind_eq_ok.1 h
  obtain ⟨dev, h6, h⟩ := Res.bind_eq_ok.1 h
  obtain ⟨key, h7, h⟩ := Res.bind_eq_ok.1 h
  obtain ⟨pub, h8, h⟩ := Res.bind_eq_ok.1 h
  split at h
  · cases h
  · rename_i p' w' ht
    cases rest with
    | false => cases h
    | true =>
      cases h
      obtain ⟨e1, e2⟩ := startupTimes_eq ht
      obtain ⟨e3, e4⟩ := OwnerServer.startupTimes_some ht
      refine ⟨?_, ?_, e3, e4⟩
      · show Number S v _ 600 p'
        rw [e1]
        exact number_of h4
      · show Number S v _ 61 w'
        rw [e2]
        exact number_of h5

/-- **C93**, rendezvous server: if it starts, the longest time it grants is that of the settings, 30 days if there is none. -/
theorem C93_rendezvous {cfg : RvServer.Config R.toRvEnv} (h : rendezvous S W rest v = .ok cfg) :
    Number S v "max_wait_seconds" (30 * 24 * 60 * 60) cfg.maxWait := by
  obtain ⟨m, d, w, -, -, h3, -, -, e⟩ := rendezvous_ok h
  rw [e]
  exact number_of h3

/-- Every registration it accepts, in any history, is answered with the smaller of the time that was asked for and that maximum. -/
theorem C93_told {cfg : RvServer.Config R.toRvEnv} (hs : rendezvous S W rest v = .ok cfg) {c : Bool}
    {B : RvServer.Backend (RvServer.Item R.toRvEnv)} {Id : Type} [DecidableEq Id] {idOf : List Char → Option Id} {aead : Http.Aead}
    {encode : RvServer.Resp → Bytes} (h : RvServer.Hist R.toRvEnv c B cfg idOf aead encode)
    (rq : Http.Request (RvServer.server R.toRvEnv c B cfg Id idOf aead encode)) (b : Bytes) (tok : Option (List Char))
    (hr : (Http.step (RvServer.reached R.toRvEnv c B cfg idOf aead encode h) rq).2 = .ok .to0AcceptOwner b tok) :
    ∃ g t item limit, Number S v "max_wait_seconds" (30 * 24 * 60 * 60) limit ∧
      RvServer.Registered R.toRvEnv c B cfg idOf aead encode h rq g t item ∧ b = encode (.acceptOwner (min t.wait limit)) := by
  obtain ⟨g, t, item, h1, h2⟩ := RvServer.C35_told h rq b tok hr
  exact ⟨g, t, item, cfg.maxWait, C93_rendezvous hs, h1, h2⟩

/-- And is not served later than that (directory store, server not stopped in the middle of a registration, see C35). -/
theorem C93_not_served_later_partial {cfg : RvServer.Config R.toRvEnv} (hs : rendezvous S W rest v = .ok cfg) {c : Bool}
    {ser : RvServer.Item R.toRvEnv → Bytes} {de : Bytes → Option (RvServer.Item R.toRvEnv)} {Id : Type} [DecidableEq Id]
    {idOf : List Char → Option Id} {aead : Http.Aead} {encode : RvServer.Resp → Bytes} (hc : ∀ x, de (ser x) = some x)
    (h : RvServer.Hist R.toRvEnv c (RvServer.dirBackend ser de) cfg idOf aead encode)
    (hcalm : RvServer.Calm R.toRvEnv c (RvServer.dirBackend ser de) cfg idOf aead encode h) (g : Bytes) (hg : g.length = 16)
    (item : RvServer.Item R.toRvEnv) (now : Nat)
    (hl : (Store.load de now (RvServer.reached R.toRvEnv c (RvServer.dirBackend ser de) cfg idOf aead encode h).world
      (Store.guidText g)).2 = .ok (some item)) :
    ∃ h1 rq h2 t limit, Number S v "max_wait_seconds" (30 * 24 * 60 * 60) limit ∧ h = h1 ++ .request rq :: h2 ∧
      RvServer.Registered R.toRvEnv c (RvServer.dirBackend ser de) cfg idOf aead encode h1 rq g t item ∧
      now ≤ rq.oracle.now + min t.wait limit * Store.second := by
  obtain ⟨h1, rq, h2, t, e1, e2, e3⟩ := RvServer.C35_not_served_later_partial hc h hcalm g hg item now hl
  exact ⟨h1, rq, h2, t, cfg.maxWait, C93_rendezvous hs, e1, e2, e3⟩

/-- What fails: a rendezvous server starts with any maximum, also one shorter than the minute between two checks of the owner server,
and with zero. Owners are then granted times that end before they can renew. -/
theorem C93_short_violated {cfg : RvServer.Config R.toRvEnv} {l : List (String × Val)}
    (h : rendezvous S W rest (.table l) = .ok cfg) {s : String} {n : Nat} (hs : S.u32 s = some n) (hn : S.isNull s = false) :
    rendezvous S W rest (.table (put l "max_wait_seconds" (.leaf s))) = .ok { cfg with maxWait := n } := by
  obtain ⟨m, d, w, h1, h2, h3, h4, h5, e⟩ := rendezvous_ok h
  have hr : rest = true := by
    cases rest with
    | true => rfl
    | false =>
      unfold rendezvous at h
      rw [h1, h2, h3] at h
      cases h
  have e' : ∀ {α : Type} {f : Val → Res Fail α} {i : String}, "max_wait_seconds" ≠ i →
      optional S f (.table (put l "max_wait_seconds" (.leaf s))) i = optional S f (.table l) i := by
    intro α f i h
    unfold optional
    rw [show field (Val.table (put l "max_wait_seconds" (.leaf s))).fields i = field (Val.table l).fields i from field_put_ne l h _]
  have e3 : optional S (u32Of S) (.table (put l "max_wait_seconds" (.leaf s))) "max_wait_seconds" = .ok (some n) := by
    unfold optional
    rw [show field (Val.table (put l "max_wait_seconds" (.leaf s))).fields "max_wait_seconds" = some (.leaf s) from field_put_self l _ _]
    simp only [hn, Bool.false_eq_true, if_false, u32Of, hs]
  subst hr
  unfold rendezvous
  rw [e' (by decide), e' (by decide), h1, h2, e3]
  show (trusted W m >>= fun a => trusted W d >>= fun b => pure (⟨n, a, b⟩ : RvServer.Config R.toRvEnv)) = _
  rw [h4, h5]
  rfl

end

/-- **C93**, both servers: an honest owner's report to an honest rendezvous server (see C73) is granted the smaller of the owner's period
and the server's maximum, each as in the settings. -/
theorem C93_registers_partial {R : OwnerServer.OwnerEnv} {S So : Scalars} {W Wo : World R} {set setO : Val} {rest restO : Bool}
    {owner2 : R.E.Priv × R.E.Pub} {cfg : OwnerServer.Config R} {rcfg : RvServer.Config R.toRvEnv}
    (hs : rendezvous S W rest set = .ok rcfg) (ho : owner So Wo restO owner2 setO = .ok cfg)
    {c : Bool} {N : To0.Msgs} {A : Http.Aead} {encode : RvServer.Resp → Bytes} {dev : R.E.Pub} {v : Voucher.Voucher R.E}
    {B : RvServer.Backend (RvServer.Item R.toRvEnv)} {Id : Type} [DecidableEq Id] {idOf : List Char → Option Id} {M : Type}
    {mv : M → B.W → B.W} {σ0 : Http.St (RvServer.server R.toRvEnv c B rcfg Id idOf A encode)}
    {kdf : Http.Request (RvServer.server R.toRvEnv c B rcfg Id idOf A encode) → Bool}
    {p hist : List (Http.Event (RvServer.server R.toRvEnv c B rcfg Id idOf A encode) M)} {t : Trace To0.sig}
    (H : To0.Honest R c N A encode cfg rcfg dev v) {u : String} {us : List String}
    (hu : To0.reportUrls R v = .ok (u :: us)) (ht : Http.Talk mv σ0 kdf none p hist t) (hd : To0.Delivered t)
    (hg : ∀ h1 rq h2, hist = h1 ++ .request rq :: h2 →
      To0.Serves (Id := Id) (idOf := idOf) v.header.guid (Http.replay (Sv := RvServer.server R.toRvEnv c B rcfg Id idOf A encode) mv σ0 (p ++ h1)) rq)
    {r : Res To0.To0Err Nat} (he : Prog.Ends (To0.report R cfg N A v) t r) :
    ∃ period limit, Number So setO "ov_registration_period" 600 period ∧ Number S set "max_wait_seconds" (30 * 24 * 60 * 60) limit ∧
      r = .ok (min period limit) :=
  ⟨_, _, (C93_owner ho).1, C93_rendezvous hs, (To0.C73_registers_partial H hu ht hd hg he).1⟩

end Verif.Startup
