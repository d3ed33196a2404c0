import Verif.Lemmas.To0
import Verif.Props.Onboard
import Verif.Props.RvDatabase
/-!
C73: an honest owner's registration is accepted by an honest rendezvous server, and the device finds the owner there.
-/
namespace Verif.To0
open Verif Verif.Voucher Verif.Store Verif.OwnerServer Verif.Cbor.Spec

section
variable {R : OwnerEnv} {c : Bool} {N : Msgs} {A : Http.Aead} {encode : RvServer.Resp → Bytes} {cfg : OwnerServer.Config R}
    {rcfg : RvServer.Config R.toRvEnv} {dev : R.E.Pub} {v : Voucher R.E} {B : RvServer.Backend (RvServer.Item R.toRvEnv)}
    {Id : Type} [DecidableEq Id] {idOf : List Char → Option Id} {M : Type}
    {mv : M → B.W → B.W} {σ0 : Http.St (RvServer.server R.toRvEnv c B rcfg Id idOf A encode)}
    {kdf : Http.Request (RvServer.server R.toRvEnv c B rcfg Id idOf A encode) → Bool}
    {p hist : List (Http.Event (RvServer.server R.toRvEnv c B rcfg Id idOf A encode) M)} {t : Trace sig}

local notation "Srv" => RvServer.server R.toRvEnv c B rcfg Id idOf A encode
local notation "At" => Http.replay (Sv := Srv) mv σ0

theorem server_answers {o : RvServer.Oracle} {ty : MsgType} {r : RvServer.Req} {s : RvServer.Data} {k : Option Http.Keys} {w w' : B.W}
    {resp : RvServer.Resp} {data : RvServer.Data} (h : RvServer.handle R.toRvEnv c B rcfg o r s w = (w', some (resp, data))) :
    (Srv).handle o ty r s k w = (w', some (resp, data, k)) := by
  simp only [RvServer.server, h]

theorem parseNonce_of {n : Bytes} (hn : n.length = 16) : RvServer.parseNonce (Types.hexEncode n) = some n := by
  unfold RvServer.parseNonce
  rw [Types.hexDecode_encode]
  simp [hn]

theorem liftD_ok {α : Type} {r : Res Err α} {a : α} (h : liftD r = .ok a) : r = .ok a := by
  cases r with
  | ok b => exact congrArg _ (Res.ok.inj h)
  | err e => cases h
  | panic => cases h

theorem hello_answer {o : RvServer.Oracle} {s : RvServer.Data} {w : B.W} {n : Bytes} (h : o.nonce = some n) :
    RvServer.handle R.toRvEnv c B rcfg o .hello s w = (w, some (.helloAck n, { s with nonce3 := some (Types.hexEncode n) })) := by
  simp only [RvServer.handle, RvServer.hello, h]

theorem sign_answer (H : Honest R c N A encode cfg rcfg dev v) {n to0d to1d : Bytes} {x : Sign1} (m : Made R c cfg v n to0d to1d x)
    {σ : Http.St Srv} {rq : Http.Request Srv} (hg : Serves (Id := Id) (idOf := idOf) v.header.guid σ rq)
    (hb : RvServer.parseOwnerSign R.toRvEnv c rq.body = .ok (.ownerSign to0d to1d)) {s : RvServer.Data} (hs : s.nonce3.bind RvServer.parseNonce = some n) :
    ∃ w, RvServer.handle R.toRvEnv c B rcfg rq.oracle (.ownerSign to0d to1d) s σ.world =
      (w, some (.acceptOwner (min cfg.period rcfg.maxWait), s)) := by
  obtain ⟨w, w1, w2⟩ := hg.stores ⟨to0d, to1d, _, hb, m.reads, rfl⟩ ⟨dev, to1d⟩
  have w2 := w2 (min cfg.period rcfg.maxWait) (Nat.min_le_right _ _)
  refine ⟨(B.setTtl rq.oracle.now w (guidText v.header.guid) ((min cfg.period rcfg.maxWait : Nat) * (second : Int))).1, ?_⟩
  simp only [RvServer.handle, RvServer.ownersign, hs, accepted H m, RvServer.register, RvServer.guidKey, H.voucher.guid, if_true, w1,
    hg.runs, Bool.false_eq_true, if_false]
  generalize B.setTtl rq.oracle.now w (guidText v.header.guid) ((min cfg.period rcfg.maxWait : Nat) * (second : Int)) = q at w2
  obtain ⟨q1, q2⟩ := q
  simp only at w2
  subst w2
  rfl

/-- An owner reports a voucher to the rendezvous server of the first URL it has for it, nothing gets lost, and the server's
surroundings do not fail: the report succeeds, with the smaller of the lifetime the owner asks for and the server's maximum; and the
server has accepted an authentic registration of the voucher's device key and a redirect blob signed by the owner. -/
theorem C73_registers_partial (H : Honest R c N A encode cfg rcfg dev v) {u : String} {us : List String}
    (hu : reportUrls R v = .ok (u :: us)) (ht : Http.Talk mv σ0 kdf none p hist t) (hd : Delivered t)
    (hg : ∀ h1 rq h2, hist = h1 ++ .request rq :: h2 → Serves (Id := Id) (idOf := idOf) v.header.guid (At (p ++ h1)) rq)
    {r : Res To0Err Nat} (he : Prog.Ends (report R cfg N A v) t r) :
    r = .ok (min cfg.period rcfg.maxWait) ∧
    ∃ h1 rq h2 n to0d to1d s, hist = h1 ++ .request rq :: h2 ∧
      (∃ b tok, (Http.step (At (p ++ h1)) rq).2 = .ok .to0AcceptOwner b tok) ∧
      RvServer.parseOwnerSign R.toRvEnv c rq.body = .ok (.ownerSign to0d to1d) ∧
      RvServer.Authentic R.toRvEnv c rcfg n to0d to1d v.header.guid ⟨v, cfg.period, n⟩ ⟨dev, to1d⟩ ∧
      parseSign1 R.E c to1d = .ok s ∧ R.E.verify cfg.ownerPub s.prot s.payload s.sig = true ∧
      s.payload = R.encTo1 ⟨.sha384, R.E.digest .sha384 to0d⟩ := by
  have hon : Http.On (Sv := Srv) (X := ops) mv σ0 kdf t (Serves (Id := Id) (idOf := idOf) v.header.guid) .new (Http.Sess.new Srv) p hist t :=
    ⟨none, .fresh rfl rfl, rfl, ht, fun _ h => h, hd, hg⟩
  have hG : ∀ (σ : Http.St Srv) rq, Serves (Id := Id) (idOf := idOf) v.header.guid σ rq →
      rq.storeOk = true ∧ (idOf rq.freshCookie).isSome = true := fun _ _ h => ⟨h.session, h.cookie⟩
  -- checks
  have hck : checkVoucher R cfg v = .ok () := by
    obtain ⟨ch, x, leaf, d1, d2, -⟩ := H.voucher.device
    unfold checkVoucher
    rw [if_neg (by simp [H.voucher.version]), d1]
    simp only [d2]
  have he : Prog.Ends (Proc.lift (checkVoucher R cfg v) >>= fun _ => Proc.lift (liftD (reportUrls R v)) >>= _ : Proc sig _ _) t r := he
  rw [hck, hu] at he
  have he : Prog.Ends (tryUrls R cfg N A v (u :: us)) t r := he
  obtain ⟨x, t1, rfl, he2⟩ := Prog.ends_act he
  obtain ⟨g1, g2, rfl, hon1⟩ := hon.app
  have he : Prog.Ends (Proc.attempt (Proc.mapErr (fun x => To0Err.http x.2)
      (Http.sendQ (X := ops) A N.decAck .new .to0Hello .to0HelloAck N.hello none)) >>= _ : Proc sig _ _) t1 r := he2
  obtain ⟨x1, u1, u2, rfl, h1, h2⟩ := Prog.ends_bind he
  obtain ⟨x2, v1, v2, rfl, h3, h4⟩ := Prog.ends_bind h1
  obtain ⟨x3, h5, h6, -⟩ := Device.ends_mapErr_all h3
  rw [List.append_assoc] at hon1
  obtain ⟨g3, rq, g4, w, resp, data, m, tok, e1, e2, e3, e4, e5, e6, e7, e8⟩ := Http.On.send (s := Http.Sess.new Srv) hon1 h5 H.secures.opens (fun _ => rfl) rfl rfl
    (req := RvServer.Req.hello) (fun _ => by simp [RvServer.decode, H.wire.hello]) H.secures.grows rfl hG
    (fun σ rq hg => by
      obtain ⟨n, hn, hn'⟩ := hg.nonce
      exact ⟨σ.world, .helloAck n, _, n, server_answers (R := R) (k := none) (hello_answer (R := R) hn), H.wire.ack n hn', fun _ => rfl⟩)
  obtain ⟨n, hn, hn'⟩ := e3.nonce
  have e4 := e4.symm.trans (server_answers (hello_answer hn))
  cases e4
  rw [show N.decAck (encode (.helloAck n)) = some n from H.wire.ack n hn'] at e5
  have e5 := Option.some.inj e5
  subst e5
  have h6' := h6 _ e6
  subst h6'
  obtain ⟨rfl, rfl⟩ := Prog.ends_ret h4
  have h2 : Prog.Ends (ownerSign R cfg N A v _ n) u2 r := h2
  obtain ⟨to0d, to1d, s, hm⟩ := made H hn'
  obtain ⟨b, b1, b2⟩ := msg_reads H.codec hm
  have h2 : Prog.Ends (Proc.lift (liftD (buildOwnerSign R cfg v n)) >>= fun x => Proc.lift (liftD (ownerSignMsg R x.1 x.2)) >>= fun b =>
    Proc.mapErr (fun x => To0Err.http x.2) (Http.sendQ (X := ops) A N.decAccept _ .to0OwnerSign .to0AcceptOwner b none) >>= fun y => pure y.2 :
      Proc sig _ _) u2 r := h2
  rw [hm.built] at h2
  have h2 : Prog.Ends (Proc.lift (liftD (ownerSignMsg R to0d to1d)) >>= fun b =>
    Proc.mapErr (fun x => To0Err.http x.2) (Http.sendQ (X := ops) A N.decAccept _ .to0OwnerSign .to0AcceptOwner b none) >>= fun y => pure y.2 :
      Proc sig _ _) u2 r := h2
  rw [b1] at h2
  have h2 : Prog.Ends (Proc.mapErr (fun x => To0Err.http x.2)
      (Http.sendQ (X := ops) A N.decAccept _ .to0OwnerSign .to0AcceptOwner b none) >>= fun y => pure y.2 : Proc sig _ _) u2 r := h2
  obtain ⟨x5, y1, y2, rfl, k1, k2⟩ := Prog.ends_bind h2
  obtain ⟨x6, k3, k4, -⟩ := Device.ends_mapErr_all k1
  rw [List.nil_append] at e8
  obtain ⟨g5, rq2, g6, w2, resp2, data2, m2, tok2, f1, f2, f3, f4, f5, f6, f7, ⟨b', ck, f8⟩, f9, -⟩ :=
    e8.send_reply k3 H.secures.opens (fun _ => rfl) rfl rfl
    (req := RvServer.Req.ownerSign to0d to1d) (fun _ => by simp [RvServer.decode, b2]) H.secures.grows rfl hG
    (fun σ rq hg hb => by
      have hb := Option.some.inj hb
      obtain ⟨w, hw⟩ := sign_answer (c := c) (idOf := idOf) (A := A) (encode := encode) H hm hg (by rw [hb]; exact b2)
        (s := ⟨some (Types.hexEncode n), none, none⟩) (by simp [parseNonce_of hn'])
      exact ⟨_, _, _, _, server_answers hw, H.wire.accept _ (Nat.lt_of_le_of_lt (Nat.min_le_left _ _) H.period), fun _ => rfl⟩)
  have f9 := Option.some.inj f9
  obtain ⟨w3, f10⟩ := sign_answer (c := c) (idOf := idOf) (A := A) (encode := encode) H hm f3 (by rw [f9]; exact b2)
        (s := ⟨some (Types.hexEncode n), none, none⟩) (by simp [parseNonce_of hn'])
  have f4 := f4.symm.trans (server_answers f10)
  cases f4
  rw [show N.decAccept (encode (.acceptOwner _)) = some _ from
    H.wire.accept _ (Nat.lt_of_le_of_lt (Nat.min_le_left _ _) H.period)] at f5
  have f5 := Option.some.inj f5
  subst f5
  have k4' := k4 _ f6
  subst k4'
  obtain ⟨rfl, rfl⟩ := Prog.ends_ret k2
  obtain ⟨t', hau, -⟩ := RvServer.checkOwnerSign_ok (accepted H hm)
  have := hau.read
  rw [hm.reads] at this
  cases this
  refine ⟨rfl, g1 ++ (g3 ++ Http.Event.request rq :: g5), rq2, g6, n, to0d, to1d, s, by simp [e1, f1], ⟨b', ck, ?_⟩, by rw [f9]; exact b2, hau, hm.blob, hm.signed, hm.payload⟩
  simpa using f8

end

/-! ### Where it fails -/

section
variable {R : OwnerEnv} {N : Msgs} {A : Http.Aead} {cfg : OwnerServer.Config R} {v : Voucher R.E} {t : Trace sig}

/-- A report which succeeds has sent an OwnerSign, and it was answered. -/
theorem tryUrls_sent {w : Nat} : ∀ {us : List String} {t : Trace sig}, Prog.Ends (tryUrls R cfg N A v us) t (.ok w) →
    ∃ n to0d to1d b tok q, buildOwnerSign R cfg v n = .ok (to0d, to1d) ∧ ownerSignMsg R to0d to1d = .ok b ∧
      (⟨.net ⟨.to0OwnerSign, tok, b⟩, some q⟩ : sig.Deed) ∈ t ∧ q.success = true := by
  intro us
  induction us with
  | nil =>
    intro t h
    exact absurd (Prog.ends_ret h).2 (by simp)
  | cons u us ih =>
    intro t h
    obtain ⟨x, t1, rfl, h1⟩ := Prog.ends_act h
    have h1 : Prog.Ends (Proc.attempt (Proc.mapErr (fun x => To0Err.http x.2)
      (Http.sendQ (X := ops) A N.decAck .new .to0Hello .to0HelloAck N.hello none)) >>= fun a => match a with
        | some x => ownerSign R cfg N A v x.1 x.2
        | none => tryUrls R cfg N A v us : Proc sig _ _) t1 (.ok w) := h1
    obtain ⟨a, u1, u2, rfl, h2, h3⟩ := Proc.ends_bind h1
    cases a with
    | none =>
      obtain ⟨n, to0d, to1d, b, tok, q, e1, e2, e3, e4⟩ := ih h3
      exact ⟨n, to0d, to1d, b, tok, q, e1, e2, List.mem_cons_of_mem _ (List.mem_append_right _ e3), e4⟩
    | some y =>
      obtain ⟨iv, body, q, -, e0⟩ := Http.ends_sendQ (Proc.ends_mapErr (Proc.ends_attempt h2))
      obtain ⟨z, v1, v2, rfl, h4, h5⟩ := Proc.ends_bind (show Prog.Ends (Proc.lift (liftD (buildOwnerSign R cfg v y.2)) >>= fun x =>
        Proc.lift (liftD (ownerSignMsg R x.1 x.2)) >>= fun b => Proc.mapErr (fun x => To0Err.http x.2)
          (Http.sendQ (X := ops) A N.decAccept y.1 .to0OwnerSign .to0AcceptOwner b none) >>= fun y => pure y.2 : Proc sig _ _) u2 (.ok w) from h3)
      obtain ⟨b, v3, v4, rfl, h6, h7⟩ := Proc.ends_bind h5
      obtain ⟨k, v5, v6, rfl, h8, h9⟩ := Proc.ends_bind h7
      obtain ⟨rfl, h10⟩ := Proc.ends_lift h4
      obtain ⟨rfl, h11⟩ := Proc.ends_lift h6
      obtain ⟨iv', body', q', rfl, e1⟩ := Http.ends_sendQ (Proc.ends_mapErr h8)
      have hb := e1.sent
      rw [e0.keys] at hb
      have hb : some b = some body' := hb
      cases hb
      refine ⟨y.2, z.1, z.2, b, y.1.token, q', liftD_ok h10, liftD_ok h11, ?_, e1.success⟩
      simp

/-- **C73** fails for long vouchers: the message which brings the voucher to the rendezvous server contains all of it, and the server
reads no more than 16 KiB (server.rs:455). So the report of a voucher for which that message is longer never succeeds. -/
theorem C73_long_voucher_violated {Sv : Http.Server} {M : Type} {mv : M → Sv.W → Sv.W} {σ0 : Http.St Sv} {kdf : Http.Request Sv → Bool}
    {i : Option Sv.Id} {p h : List (Http.Event Sv M)}
    (hl : ∀ n to0d to1d b, buildOwnerSign R cfg v n = .ok (to0d, to1d) → ownerSignMsg R to0d to1d = .ok b → 16384 < b.length)
    (ht : Http.Talk mv σ0 kdf i p h t) {r : Res To0Err Nat} (he : Prog.Ends (report R cfg N A v) t r) : ∀ w, r ≠ .ok w := by
  rintro w rfl
  obtain ⟨_, t1, t2, rfl, h1, h2⟩ := Proc.ends_bind (show Prog.Ends (Proc.lift (checkVoucher R cfg v) >>= fun _ =>
    Proc.lift (liftD (reportUrls R v)) >>= fun us => tryUrls R cfg N A v us : Proc sig _ _) t (.ok w) from he)
  obtain ⟨us, t3, t4, rfl, h3, h4⟩ := Proc.ends_bind h2
  obtain ⟨n, to0d, to1d, b, tok, q, e1, e2, e3, e4⟩ := tryUrls_sent h4
  obtain ⟨h1, rq, h2, -, hc, ha⟩ := Http.talk_served ht (List.mem_append_right _ (List.mem_append_right _ e3))
  cases hs : (Http.step (Http.replay mv σ0 (p ++ h1)) rq).2 with
  | reject =>
    rw [hs] at ha
    exact absurd ((show q.success = false from ha).symm.trans e4) (by decide)
  | ok om b' tok' =>
    obtain ⟨a, _, _, _, _, hacc, -⟩ := Http.step_ok hs
    have := hl n to0d to1d b e1 e2
    unfold Http.accept at hacc
    rw [show rq.body = b from hc.body] at hacc
    split at hacc
    · cases hacc
    · rw [if_pos this] at hacc
      cases hacc

theorem split_after {α : Type} {a b x y : List α} {d : α} (h : a ++ b = x ++ d :: y) (hn : d ∉ a) : ∃ x', b = x' ++ d :: y := by
  rcases List.append_eq_append_iff.1 h with ⟨z, _, h2⟩ | ⟨z, h1, h2⟩
  · exact ⟨z, h2⟩
  · cases z with
    | nil => exact ⟨[], by simpa using h2.symm⟩
    | cons e z =>
      obtain ⟨rfl, -⟩ := List.cons.inj h2
      exact absurd (by rw [h1]; simp) hn

theorem ownerSign_trace {y : Http.Client} {n : Bytes} {r : Res To0Err Nat} {t : Trace sig} (h : Prog.Ends (ownerSign R cfg N A v y n) t r) :
    (t = [] ∨ (∃ iv, t = [⟨.iv, iv⟩]) ∨ ∃ iv q o, t = [⟨.iv, iv⟩, ⟨.net q, o⟩]) ∧
    ∀ w, r = .ok w → ∃ iv q, ∃ q' : Http.NetReply, t = [⟨.iv, iv⟩, ⟨.net q, some q'⟩] ∧ q'.success = true := by
  have h : Prog.Ends (Proc.lift (liftD (buildOwnerSign R cfg v n)) >>= fun x =>
    Proc.lift (liftD (ownerSignMsg R x.1 x.2)) >>= fun b => Proc.mapErr (fun x => To0Err.http x.2)
      (Http.sendQ (X := ops) A N.decAccept y .to0OwnerSign .to0AcceptOwner b none) >>= fun y => pure y.2 : Proc sig _ _) t r := h
  rcases Proc.ends_bind' h with ⟨z, v1, v2, rfl, h4, h5⟩ | ⟨e, h4, rfl⟩ | ⟨h4, rfl⟩
  · obtain ⟨rfl, -⟩ := Proc.ends_lift h4
    rcases Proc.ends_bind' h5 with ⟨b, v3, v4, rfl, h6, h7⟩ | ⟨e, h6, rfl⟩ | ⟨h6, rfl⟩
    · obtain ⟨rfl, -⟩ := Proc.ends_lift h6
      obtain ⟨x, v5, v6, rfl, h8, h9⟩ := Prog.ends_bind h7
      have hv6 : v6 = [] := by
        cases x <;> exact (Prog.ends_ret h9).1
      subst hv6
      simp only [List.nil_append, List.append_nil]
      refine ⟨?_, ?_⟩
      · rcases Http.does_sendQ (Proc.does_mapErr ⟨_, h8⟩) with e | ⟨iv, e⟩ | ⟨iv, body, q, e, -⟩
        · exact .inl e
        · exact .inr (.inl ⟨iv, e⟩)
        · exact .inr (.inr ⟨iv, _, _, e⟩)
      · rintro w rfl
        cases x with
        | ok x =>
          obtain ⟨iv, body, q, e1, e2⟩ := Http.ends_sendQ (Proc.ends_mapErr h8)
          exact ⟨iv, _, q, e1, e2.success⟩
        | err e => exact absurd (Prog.ends_ret h9).2 (by simp)
        | panic => exact absurd (Prog.ends_ret h9).2 (by simp)
    · obtain ⟨rfl, -⟩ := Proc.ends_lift h6
      exact ⟨.inl rfl, by simp⟩
    · obtain ⟨rfl, -⟩ := Proc.ends_lift h6
      exact ⟨.inl rfl, by simp⟩
  · obtain ⟨rfl, -⟩ := Proc.ends_lift h4
    exact ⟨.inl rfl, by simp⟩
  · obtain ⟨rfl, -⟩ := Proc.ends_lift h4
    exact ⟨.inl rfl, by simp⟩

/-- **C73** fails if the first server which answers refuses: then the report fails, and no other URL is tried, however many there are. -/
theorem C73_refusal_violated {s : Http.Sent} {o : Option Http.NetReply} (hs : s.type = .to0OwnerSign) (ho : ∀ q, o = some q → q.success = false)
    {r : Res To0Err Nat} : ∀ {us : List String} {t t1 t2 : Trace sig}, Prog.Ends (tryUrls R cfg N A v us) t r →
    t = t1 ++ (⟨.net s, o⟩ : sig.Deed) :: t2 → (∀ w, r ≠ .ok w) ∧ t2 = [] := by
  intro us
  induction us with
  | nil =>
    intro t t1 t2 h he
    obtain ⟨rfl, -⟩ := Prog.ends_ret h
    simp at he
  | cons u us ih =>
    intro t t1 t2 h he
    obtain ⟨x, t3, rfl, h1⟩ := Prog.ends_act h
    have h1 : Prog.Ends (Proc.attempt (Proc.mapErr (fun x => To0Err.http x.2)
      (Http.sendQ (X := ops) A N.decAck .new .to0Hello .to0HelloAck N.hello none)) >>= fun a => match a with
        | some x => ownerSign R cfg N A v x.1 x.2
        | none => tryUrls R cfg N A v us : Proc sig _ _) t3 r := h1
    obtain ⟨a, u1, u2, rfl, h2, h3⟩ := Prog.ends_bind h1
    have hon : Prog.Only (S := sig) (fun e => e ≠ .net s) (Proc.attempt (Proc.mapErr (fun x => To0Err.http x.2)
      (Http.sendQ (X := ops) A N.decAck .new .to0Hello .to0HelloAck N.hello none)) : Proc sig To0Err _) :=
      Proc.only_attempt (Proc.only_mapErr (Http.only_sendQ (by simp) (by
        rintro s' h1 h2
        cases h2
        rw [hs] at h1
        cases h1)))
    have hnot : (⟨.net s, o⟩ : sig.Deed) ∉ (⟨.app (.connect u), x⟩ : sig.Deed) :: u1 := by
      intro hm
      rcases List.mem_cons.1 hm with hm | hm
      · cases hm
      · exact hon u1 ⟨_, h2⟩ _ hm rfl
    obtain ⟨x', rfl⟩ := split_after (a := (⟨.app (.connect u), x⟩ : sig.Deed) :: u1) he hnot
    cases a with
    | err e => exact absurd (Prog.ends_ret h3).1 (by simp)
    | panic => exact absurd (Prog.ends_ret h3).1 (by simp)
    | ok a =>
      cases a with
      | none => exact ih h3 rfl
      | some y =>
        obtain ⟨e1, e2⟩ := ownerSign_trace h3
        have hlast : t2 = [] := by
          rcases e1 with e1 | ⟨iv, e1⟩ | ⟨iv, q, o', e1⟩
          · simp at e1
          · cases x' with
            | nil => cases e1
            | cons _ x' => simp at e1
          · cases x' with
            | nil => cases e1
            | cons _ x' =>
              cases x' with
              | nil => exact (List.cons.inj (List.cons.inj e1).2).2
              | cons _ x' => simp at e1
        refine ⟨?_, hlast⟩
        rintro w rfl
        obtain ⟨iv, q, q', e3, e4⟩ := e2 w rfl
        subst hlast
        cases x' with
        | nil => cases e3
        | cons _ x' =>
          cases x' with
          | nil =>
            have e5 := (List.cons.inj (List.cons.inj e3).2).1
            cases e5
            exact absurd ((ho q' rfl).symm.trans e4) (by decide)
          | cons _ x' => simp at e3

end

section
open Verif.Device Verif.Types
variable {R : DevEnv} {c : Bool} {A : Http.Aead} {encode : RvServer.Resp → Bytes}
    {rcfg : RvServer.Config R.toRvEnv} {B : RvServer.Backend (RvServer.Item R.toRvEnv)} {cr : Credential.Cred} {item : RvServer.Item R.toRvEnv}
    {Id : Type} [DecidableEq Id] {idOf : List Char → Option Id} {M : Type}
    {mv : M → B.W → B.W} {σ0 : Http.St (RvServer.server R.toRvEnv c B rcfg Id idOf A encode)}
    {kdf : Http.Request (RvServer.server R.toRvEnv c B rcfg Id idOf A encode) → Bool}
    {p hist : List (Http.Event (RvServer.server R.toRvEnv c B rcfg Id idOf A encode) M)} {t : Trace (Device.sig R)}

local notation "Srv" => RvServer.server R.toRvEnv c B rcfg Id idOf A encode
local notation "At" => Http.replay (Sv := Srv) mv σ0

theorem server_answers' {o : RvServer.Oracle} {ty : MsgType} {r : RvServer.Req} {s : RvServer.Data} {k : Option Http.Keys} {w w' : B.W}
    {resp : RvServer.Resp} {data : RvServer.Data} (h : RvServer.handle R.toRvEnv c B rcfg o r s w = (w', some (resp, data))) :
    (Srv).handle o ty r s k w = (w', some (resp, data, k)) := by
  simp only [RvServer.server, h]

theorem hello_rv_answer (hgl : cr.guid.length = 16) {σ : Http.St Srv} {rq : Http.Request Srv}
    (hg : Holds (Id := Id) (idOf := idOf) cr.guid item σ rq) {s : RvServer.Data} {n : Bytes} (hn : rq.oracle.nonce = some n) :
    ∃ w, RvServer.handle R.toRvEnv c B rcfg rq.oracle (.helloRv cr.guid true []) s σ.world =
      (w, some (.helloRvAck n, { s with nonce4 := some (hexEncode n), guid := some (guidText cr.guid) })) := by
  have hl := hg.holds
  refine ⟨(B.load rq.oracle.now σ.world (guidText cr.guid)).1, ?_⟩
  simp only [RvServer.handle, RvServer.helloRv, RvServer.guidKey, hgl, if_true, List.isEmpty_nil, Bool.not_true, Bool.or_self,
    Bool.false_eq_true, if_false]
  cases hb : B.load rq.oracle.now σ.world (guidText cr.guid) with
  | mk w' res =>
    rw [hb] at hl
    simp only at hl
    subst hl
    simp only [hn]

theorem prove_rv_answer (hgl : cr.guid.length = 16) {σ : Http.St Srv} {rq : Http.Request Srv}
    (hg : Holds (Id := Id) (idOf := idOf) cr.guid item σ rq) {n token : Bytes} {s : RvServer.Data} {eat : RvServer.Eat}
    (hn : s.nonce4.bind RvServer.parseNonce = some n) (hs : s.guid = some (guidText cr.guid))
    (he : RvServer.getEat R.toRvEnv c token item.key = .ok eat) (hen : eat.nonce = n) :
    ∃ w, RvServer.handle R.toRvEnv c B rcfg rq.oracle (.prove token) s σ.world = (w, some (.redirect item.to1d, s)) := by
  have hl := hg.holds
  refine ⟨(B.load rq.oracle.now σ.world (guidText cr.guid)).1, ?_⟩
  simp only [RvServer.handle, RvServer.proveToRv, hn, hs, Option.bind_some, RvServer.parseGuid_of hgl]
  cases hb : B.load rq.oracle.now σ.world (guidText cr.guid) with
  | mk w' res =>
    rw [hb] at hl
    simp only at hl
    subst hl
    simp only [he, hen, ne_eq, not_true, if_false]

/-- A device asks the rendezvous server of the first URL it has, nothing gets lost, the server's surroundings do not fail and it has
a registration for the device's GUID and key: the device gets exactly the registered blob. -/
theorem C73_finds_partial (C : CodecLaws R.E) (W : Wire1 R encode) (S : Secures A) (hgl : cr.guid.length = 16) {x : Sign1}
    (hx : parseSign1 R.E c item.to1d = .ok x) (ht : Http.Talk mv σ0 kdf none p hist t) (hd : Delivered t) (hdev : DeviceSigns R item.key t)
    (hg : ∀ h1 rq h2, hist = h1 ++ .request rq :: h2 → Holds (Id := Id) (idOf := idOf) cr.guid item (At (p ++ h1)) rq)
    {u : String} {us : List String} {r : Res DevErr (Option Sign1)} (he : Prog.Ends (getTo1d c A cr (u :: us)) t r) :
    r = .ok (some x) := by
  have hon : Http.On (Sv := Srv) (X := Device.ops R) mv σ0 kdf t (Holds (Id := Id) (idOf := idOf) cr.guid item) .new (Http.Sess.new Srv) p hist t :=
    ⟨none, .fresh rfl rfl, rfl, ht, fun _ h => h, hd, hg⟩
  have hG : ∀ (σ : Http.St Srv) rq, Holds (Id := Id) (idOf := idOf) cr.guid item σ rq →
      rq.storeOk = true ∧ (idOf rq.freshCookie).isSome = true := fun _ _ h => ⟨h.session, h.cookie⟩
  obtain ⟨y, t1, rfl, he2⟩ := Prog.ends_act he
  obtain ⟨g1, g2, rfl, hon1⟩ := hon.app
  have he2 : Prog.Ends (Proc.attempt (reporting A (to1 c A cr .new)) >>= fun s => match s with
    | some s => pure (some s)
    | none => getTo1d c A cr us : Proc (Device.sig R) _ _) t1 r := he2
  obtain ⟨x1, u1, u2, rfl, h1, h2⟩ := Prog.ends_bind he2
  obtain ⟨x2, v1, v2, rfl, h3, h4⟩ := Prog.ends_bind h1
  have h3 : Prog.Ends (Prog.bind (to1 c A cr .new) _) v1 x2 := h3
  obtain ⟨x3, z1, z2, rfl, h5, h6⟩ := Prog.ends_bind h3
  suffices hs : x3 = .ok x by
    subst hs
    obtain ⟨rfl, rfl⟩ := Prog.ends_ret h6
    obtain ⟨rfl, rfl⟩ := Prog.ends_ret h4
    obtain ⟨rfl, rfl⟩ := Prog.ends_ret h2
    rfl
  clear h6 h4 h2 h3 h1
  rw [List.append_assoc, List.append_assoc] at hon1
  have h5 : Prog.Ends (helloRv A cr .new >>= fun y => say A (decToken (R := R) c) y.1 .to1ProveToRV .to1RVRedirect y.2 none >>= fun z => pure z.2 :
    Step R _) z1 x3 := h5
  obtain ⟨x4, a1, a2, rfl, h6, h7⟩ := Prog.ends_bind h5
  have h6 : Prog.Ends (say A R.decHelloAck .new .to1HelloRV .to1HelloRVAck (R.encHelloRv cr.guid) none >>= fun y =>
    Proc.check (y.1, .sigInfo) (decide (y.2.2.1 = .es384 ∧ y.2.2.2 = [])) >>= fun _ =>
    signToken y.1 emptyMap (R.encClaims y.2.1 (asUeid cr.guid) none) >>= fun z => pure (y.1, z) : Step R _) a1 x4 := h6
  obtain ⟨x5, b1, b2, rfl, h8, h9⟩ := Prog.ends_bind h6
  obtain ⟨x6, h10, h11, -⟩ := ends_mapErr_all h8
  rw [List.append_assoc, List.append_assoc] at hon1
  obtain ⟨g3, rq, g4, w, resp, data, m, tok, e1, e2, e3, e4, e5, e6, e7, e8⟩ := Http.On.send (s := Http.Sess.new Srv) hon1 h10 S.opens (fun _ => rfl) rfl rfl
    (req := RvServer.Req.helloRv cr.guid true []) (fun _ => by simp [RvServer.decode, W.hello _ hgl]) S.grows rfl hG
    (fun σ rq hg => by
      obtain ⟨n, hn, hn'⟩ := hg.nonce
      obtain ⟨w, hw⟩ := hello_rv_answer hgl hg (s := ⟨none, none, none⟩) hn
      exact ⟨_, _, _, _, server_answers' (k := none) hw, W.ack n hn', fun _ => rfl⟩)
  obtain ⟨n, hn, hn'⟩ := e3.nonce
  obtain ⟨w', hw⟩ := hello_rv_answer hgl e3 (s := ⟨none, none, none⟩) hn
  have e4 := e4.symm.trans (server_answers' hw)
  cases e4
  rw [show R.decHelloAck (encode (.helloRvAck n)) = _ from W.ack n hn'] at e5
  have e5 := Option.some.inj e5
  subst e5
  have h11 := h11 _ e6
  subst h11
  have h9 : Prog.Ends (signToken ⟨tok, none, some .to1HelloRVAck, some (kdf rq)⟩ emptyMap (R.encClaims n (asUeid cr.guid) none) >>= fun z =>
    pure ((⟨tok, none, some .to1HelloRVAck, some (kdf rq)⟩ : Http.Client), z) : Step R _) b2 x4 := h9
  obtain ⟨x7, c1, c2, rfl, k1, k2⟩ := Prog.ends_bind h9
  obtain ⟨o, c3, rfl, k3⟩ := Prog.ends_act k1
  have hin := e8.part _ (List.mem_append_left _ (List.mem_append_left _ List.mem_cons_self))
  simp only [← List.append_assoc] at hin
  simp only [← List.append_assoc] at hdev
  obtain ⟨prot, sg, ho, s1, s2, s3, s4⟩ := hdev _ o hin
  have ho : o = some (prot, sg) := ho
  subst ho
  have hu : (asUeid cr.guid).length = 17 := by simp [asUeid, hgl]
  obtain ⟨hc1, hc2⟩ := W.claims n _ hn' hu
  obtain ⟨q1, q2, -⟩ := signed_reads (c := c) C Device.emptyMap_item s1 hc2 s2 s4
  have k3 : Prog.Ends (given ⟨tok, none, some .to1HelloRVAck, some (kdf rq)⟩ (Device.liftD (liftP (Cbor.serialize ⟨some 18, [R.E.encBytes prot, emptyMap,
    R.E.encBytes (R.encClaims n (asUeid cr.guid) none), R.E.encBytes sg]⟩))) : Step R _) c3 x7 := k3
  rw [q1] at k3
  obtain ⟨rfl, rfl⟩ := Prog.ends_ret k3
  obtain ⟨rfl, rfl⟩ := Prog.ends_ret k2
  have h7 : Prog.Ends (say A (decToken (R := R) c) ⟨tok, none, some .to1HelloRVAck, some (kdf rq)⟩ .to1ProveToRV .to1RVRedirect
    (shortest [R.E.encBytes prot, emptyMap, R.E.encBytes (R.encClaims n (asUeid cr.guid) none), R.E.encBytes sg]) none >>= fun z => pure z.2 :
    Step R _) a2 x3 := h7
  simp only [List.cons_append, List.nil_append] at e8
  obtain ⟨f1, f2, rfl, hon2⟩ := e8.app
  obtain ⟨x8, d1, d2, rfl, k4, k5⟩ := Prog.ends_bind h7
  obtain ⟨x9, k6, k7, -⟩ := ends_mapErr_all k4
  have heat : RvServer.getEat R.toRvEnv c (shortest [R.E.encBytes prot, emptyMap, R.E.encBytes (R.encClaims n (asUeid cr.guid) none),
      R.E.encBytes sg]) item.key = .ok ⟨n, cr.guid, none⟩ := by
    unfold RvServer.getEat
    rw [q2]
    simp only [Res.bind_ok, s3, if_true, hc1, ofOpt]
    simp [RvServer.eatFromMap, asUeid, fromUeid]
  simp only [List.nil_append, List.append_assoc] at hon2
  obtain ⟨g5, rq2, g6, w2, resp2, data2, m2, tok2, l1, l2, l3, l4, l5, l6, -, -⟩ := Http.On.send hon2 k6 S.opens (fun _ => rfl) rfl rfl
    (req := RvServer.Req.prove (shortest [R.E.encBytes prot, emptyMap, R.E.encBytes (R.encClaims n (asUeid cr.guid) none), R.E.encBytes sg]))
    (fun _ => by simp [RvServer.decode, q2]) S.grows rfl hG
    (fun σ rq hg => by
      obtain ⟨w, hw⟩ := prove_rv_answer hgl hg (s := ⟨none, some (hexEncode n), some (guidText cr.guid)⟩)
        (parseNonce_of hn') rfl heat rfl
      exact ⟨_, _, _, x, server_answers' (k := none) hw, by simp [decToken, W.redirect, hx], fun _ => rfl⟩)
  obtain ⟨w3, hw3⟩ := prove_rv_answer hgl l3 (s := ⟨none, some (hexEncode n), some (guidText cr.guid)⟩)
        (parseNonce_of hn') rfl heat rfl
  have l4 := l4.symm.trans (server_answers' hw3)
  cases l4
  rw [show decToken (R := R) c (encode (.redirect item.to1d)) = some x by simp [decToken, W.redirect, hx]] at l5
  have l5 := Option.some.inj l5
  subst l5
  have k7 := k7 _ l6
  subst k7
  obtain ⟨rfl, rfl⟩ := Prog.ends_ret k5
  rfl

end

section
open Verif.Device
attribute [local irreducible] second
variable {R : DevEnv} {c : Bool} {N : Msgs} {A : Http.Aead} {encode : RvServer.Resp → Bytes} {cfg : OwnerServer.Config R.toOwnerEnv}
    {rcfg : RvServer.Config R.toRvEnv} {dev : R.E.Pub} {v : Voucher R.E} {cr : Credential.Cred}
    {ser : RvServer.Item R.toRvEnv → Bytes} {de : Bytes → Option (RvServer.Item R.toRvEnv)}
    {Id : Type} [DecidableEq Id] {idOf : List Char → Option Id} {B : RvServer.Backend (RvServer.Item R.toRvEnv)}
    {kdf : Http.Request (RvServer.server R.toRvEnv c B rcfg Id idOf A encode) → Bool}
    {p hist mid hist' : RvServer.Hist R.toRvEnv c B rcfg idOf A encode} {t : Trace sig} {t' : Trace (Device.sig R)}

local notation "Srv" => RvServer.server R.toRvEnv c B rcfg Id idOf A encode
local notation "Reached" => RvServer.reached R.toRvEnv c B rcfg idOf A encode
local notation "Moves" => RvServer.move R.toRvEnv B
local notation "Names" => RvServer.Names R.toRvEnv c B rcfg idOf A encode
local notation "Time" => RvServer.timeOf R.toRvEnv c B rcfg idOf A encode

/-- The directory always is such a store. -/
theorem dir_keeping (hc : ∀ x, de (ser x) = some x) :
    Keeping (R := R.toRvEnv) c (RvServer.dirBackend ser de) rcfg idOf A encode fun _ _ => True where
  keeps := RvServer.C36_directory hc
  takes p h g rq _ _ _ ht := by
    intro item
    obtain ⟨s1, s2, -, -⟩ := RvServer.store_good
      (d := (RvServer.reached R.toRvEnv c (RvServer.dirBackend ser de) rcfg idOf A encode (p ++ h)).world) (guidText_good g) (ser item)
    refine ⟨(Store.store (RvServer.reached R.toRvEnv c (RvServer.dirBackend ser de) rcfg idOf A encode (p ++ h)).world (guidText g) [ser item]).1, ?_, ?_⟩
    · show Store.store _ (guidText g) [ser item] = _
      rw [← s1]
    · intro wait hw
      have hle : rq.oracle.now / second + wait ≤ 253402300799 := by omega
      exact congrArg Prod.snd (RvServer.setMeta_time s2 hle (by rw [RvServer.timestamp_wait, if_pos hle]))

/-- The databases are such a store, being free for a device if there is no row for it. -/
theorem db_keeping (hc : ∀ x, de (ser x) = some x) :
    Keeping (R := R.toRvEnv) c (RvServer.dbBackend ser de) rcfg idOf A encode fun g t => ∀ r ∈ t, r.guid ≠ guidText g where
  keeps h1 rq b tok hr := by
    obtain ⟨g, t, item, q1, q2⟩ := RvServer.C36_database_partial hc h1 rq b tok hr
    exact ⟨g, t, item, q1, fun h2 hh now _ => q2 h2 hh now⟩
  takes p h g rq hg hf hn ht := by
    intro item
    have habs := RvServer.db_absent hg h hn (RvServer.reached R.toRvEnv c (RvServer.dbBackend ser de) rcfg idOf A encode p) (by
      rw [List.find?_eq_none]
      intro r hr
      simpa using hf r hr)
    have habs : RvServer.rowOf (RvServer.reached R.toRvEnv c (RvServer.dbBackend ser de) rcfg idOf A encode (p ++ h)).world (guidText g) = none := by
      unfold RvServer.reached
      rw [Http.replay_append]
      exact habs
    generalize RvServer.reached R.toRvEnv c (RvServer.dbBackend ser de) rcfg idOf A encode (p ++ h) = σ at habs
    rw [List.find?_eq_none] at habs
    refine ⟨σ.world ++ [⟨guidText g, ser item, none, none, none⟩], ?_, ?_⟩
    · show dbStore σ.world (guidText g) (ser item) = _
      unfold dbStore
      rw [if_neg]
      rw [List.any_eq_true]
      rintro ⟨r, hr, he⟩
      exact habs r hr he
    · intro wait hw
      have hle : rq.oracle.now / second + wait ≤ 253402300799 := by omega
      exact congrArg Prod.snd (RvServer.dbSetMeta_succeeds (mk := ttlKey) (by rw [RvServer.timestamp_wait, if_pos hle]))

/-- **C73**: an owner registers a voucher with a rendezvous server, as in `C73_registers_partial`; afterwards the voucher's device asks
that server, as in `C73_finds_partial`. The end of the registration lies before the year 10000. In between anything may happen which is
not another registration naming this device, and the lifetime granted has not run out (up to rounding to whole seconds). Then the owner's
report succeeds, and the device gets a blob which the owner has signed. The server's store is any which keeps registrations: the directory
(`dir_keeping`), or the databases (`db_keeping`) if they have no row for the device yet. -/
theorem C73_meets_partial {free : Bytes → B.W → Prop} (K : Keeping (R := R.toRvEnv) c B rcfg idOf A encode free)
    (hfree : free v.header.guid (Reached p).world)
    (H : Honest R.toOwnerEnv c N A encode cfg rcfg dev v) (W : Wire1 R encode) (hcr : cr.guid = v.header.guid)
    (ht : Http.Talk (Sv := Srv) Moves (Http.start B.empty) kdf none p hist t) (hd : Delivered t)
    (hg : ∀ rq, .request rq ∈ hist → Awake (Id := Id) (idOf := idOf) (c := c) (B := B) (rcfg := rcfg) (A := A) (encode := encode) rq ∧
      rq.oracle.stopped = false ∧ rq.oracle.now / second + rcfg.maxWait ≤ 253402300799)
    {u : String} {us : List String} (hu : reportUrls R.toOwnerEnv v = .ok (u :: us)) {r : Res To0Err Nat}
    (he : Prog.Ends (report R.toOwnerEnv cfg N A v) t r)
    (hmid : ∀ h1 rq h2, hist = h1 ++ .request rq :: h2 → Names v.header.guid (.request rq) → ∀ e ∈ h2 ++ mid ++ hist',
      ¬ Names v.header.guid e ∧ ∀ T, Time e = some T → T + second ≤ rq.oracle.now + min cfg.period rcfg.maxWait * second)
    (ht' : Http.Talk (Sv := Srv) Moves (Http.start B.empty) kdf none (p ++ hist ++ mid) hist' t') (hd' : Delivered t') (hdev : DeviceSigns R dev t')
    (hg' : ∀ rq, .request rq ∈ hist' → Awake (Id := Id) (idOf := idOf) (c := c) (B := B) (rcfg := rcfg) (A := A) (encode := encode) rq)
    {u' : String} {us' : List String} {r' : Res DevErr (Option Sign1)} (he' : Prog.Ends (getTo1d c A cr (u' :: us')) t' r') :
    r = .ok (min cfg.period rcfg.maxWait) ∧ ∃ x h, r' = .ok (some x) ∧ R.E.verify cfg.ownerPub x.prot x.payload x.sig = true ∧
      x.payload = R.encTo1 h := by
  -- a registration of the device is the first one in this history
  have hfirst : ∀ h1 rq h2, hist = h1 ++ .request rq :: h2 → Names v.header.guid (.request rq) → ∀ e ∈ h1, ¬ Names v.header.guid e := by
    intro h1 rq h2 e hn x hx hnx
    obtain ⟨f1, f2, rfl⟩ := List.append_of_mem hx
    cases x with
    | expire i => exact hnx
    | internal m => exact hnx
    | request rq' => exact (hmid f1 rq' (f2 ++ .request rq :: h2) (by simp [e]) hnx (.request rq) (by simp)).1 hn
  obtain ⟨rfl, h1, rq, h2, n, to0d, to1d, s, e1, ⟨b, tok, e2⟩, e3, e4, e5, e6, e7⟩ := C73_registers_partial H hu ht hd
    (fun h1 rq h2 e => ⟨(hg rq (by rw [e]; simp)).1, (hg rq (by rw [e]; simp)).2.1, fun hn =>
      K.takes p h1 v.header.guid rq H.voucher.guid hfree (hfirst h1 rq h2 e hn) (hg rq (by rw [e]; simp)).2.2⟩) he
  refine ⟨rfl, s, _, ?_, e6, e7⟩
  obtain ⟨g, t2, item, ⟨-, i, n2, to0d2, to1d2, -, -, q1, q2⟩, q3⟩ := K.keeps (p ++ h1) rq b tok e2
  rw [e3] at q1
  cases q1
  have hr := q2.read
  rw [e4.read] at hr
  cases hr
  have hgg := q2.guid
  subst hgg
  have hitem : item = ⟨dev, to1d⟩ := by
    obtain ⟨ch, leaf, _, _, _, a1, -, a2, -, -, -, a3⟩ := q2.device
    obtain ⟨ch', leaf', _, _, _, b1, -, b2, -, -, -, b3⟩ := e4.device
    rw [a1] at b1
    cases b1
    rw [a2] at b2
    cases b2
    rw [a3] at b3
    have b3 := Option.some.inj b3
    have bl := q2.blob
    cases item
    simp only at b3 bl
    subst b3 bl
    rfl
  subst hitem
  have hev := hmid h1 rq h2 e1 ⟨to0d, to1d, _, e3, e4.read, rfl⟩
  refine C73_finds_partial (item := ⟨dev, to1d⟩) H.codec W H.secures (hcr ▸ H.voucher.guid) e5 ht' hd' hdev ?_ he'
  rintro f1 rq' f2 rfl
  refine ⟨hg' rq' (by simp), ?_⟩
  rw [hcr]
  have := q3 (h2 ++ mid ++ f1) (fun e hm => hev e (by
      simp only [List.mem_append] at hm ⊢
      rcases hm with (hm | hm) | hm
      · exact .inl (.inl hm)
      · exact .inl (.inr hm)
      · exact .inr (.inl hm))) rq'.oracle.now ((hev (.request rq') (by simp)).2 _ rfl)
  rw [show p ++ h1 ++ Http.Event.request rq :: (h2 ++ mid ++ f1) = p ++ hist ++ mid ++ f1 by simp [e1]] at this
  exact this

end

end Verif.To0
