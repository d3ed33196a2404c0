import Verif.Lemmas.Honest
/-!
A client and a server whose messages all arrive: each request the client has reason to send is served.
-/
namespace Verif.Http
open Verif
variable {Sv : Server} {M : Type} {X : Sig} {mv : M → Sv.W → Sv.W} {σ0 : St Sv} {kdf : Request Sv → Bool}

local notation "At" => replay mv σ0

/-- A talk which is part of a client's doings `T`, in which nothing gets lost, requests are not too long for the server, and
what happens at the server is `G` for each request. -/
structure Smooth (mv : M → Sv.W → Sv.W) (σ0 : St Sv) (kdf : Request Sv → Bool) (T : Trace (netSig X))
    (G : St Sv → Request Sv → Prop) (i : Option Sv.Id) (p h : List (Event Sv M)) (t : Trace (netSig X)) : Prop where
  talk : Talk mv σ0 kdf i p h t
  part : ∀ d ∈ t, d ∈ T
  heard : ∀ s o, (⟨.net s, o⟩ : (netSig X).Deed) ∈ T → (∃ q, o = some q) ∧ s.body.length ≤ 16384
  good : ∀ h1 rq h2, h = h1 ++ .request rq :: h2 → G (replay mv σ0 (p ++ h1)) rq

/-- Client and server are in step, and will talk smoothly. -/
def On (mv : M → Sv.W → Sv.W) (σ0 : St Sv) (kdf : Request Sv → Bool) (T : Trace (netSig X))
    (G : St Sv → Request Sv → Prop) (cl : Client) (s : Sess Sv) (p h : List (Event Sv M)) (t : Trace (netSig X)) : Prop :=
  ∃ i, Sync (replay mv σ0 p) cl i s ∧ s.last = cl.last ∧ Smooth mv σ0 kdf T G i p h t

variable {T t t1 t2 : Trace (netSig X)} {G : St Sv → Request Sv → Prop} {cl : Client} {s : Sess Sv} {p h : List (Event Sv M)}

theorem On.part (ho : On mv σ0 kdf T G cl s p h t) : ∀ d ∈ t, d ∈ T := by
  obtain ⟨_, _, _, h⟩ := ho
  exact h.part

theorem On.quiet (ho : On mv σ0 kdf T G cl s p h (t1 ++ t2)) (hq : ∀ d ∈ t1, Silent d) :
    ∃ h1 h2, h = h1 ++ h2 ∧ On mv σ0 kdf T G cl s (p ++ h1) h2 t2 := by
  obtain ⟨i, h1, h2, h3⟩ := ho
  obtain ⟨g1, g2, rfl, g3, g4⟩ := talk_quiet hq h3.talk
  refine ⟨g1, g2, rfl, i, h1.move g3, h2, g4, fun d hd => h3.part d (List.mem_append_right _ hd), h3.heard, ?_⟩
  rintro f1 rq f2 rfl
  have := h3.good (g1 ++ f1) rq f2 (by simp)
  rwa [← List.append_assoc] at this

theorem On.app {e : X.Eff} {a : X.Ans e} (ho : On mv σ0 kdf T G cl s p h (⟨.app e, a⟩ :: t)) :
    ∃ h1 h2, h = h1 ++ h2 ∧ On mv σ0 kdf T G cl s (p ++ h1) h2 t :=
  On.quiet (t1 := [⟨.app e, a⟩]) ho fun d hd => by
    cases List.mem_singleton.1 hd
    exact silent_app _ _

/-- A request which is served. -/
theorem accept_good {σ : St Sv} {i : Option Sv.Id} {rq : Request Sv} {om sm : MsgType} {plain body : Bytes} {req : Sv.Req}
    (hs : Sync σ cl i s) (hl : s.last = cl.last) (hc : Carries ⟨om, cl.token, body⟩ rq) (hb : body.length ≤ 16384)
    (hv : om.validPrev cl.last = true) (hk : encOk om cl.keys = true) (hr : routeOf Sv.routes om = some sm)
    (hpl : decryptWith Sv.aead cl.keys body = some plain) (hd : Sv.decode om plain = some req)
    (hf : (Sv.idOf rq.freshCookie).isSome = true) :
    ∃ j ck, accept σ rq = some ⟨sm, j, s, ck, req⟩ ∧
      ∃ hdr, (ck.map (fun t => some ("Bearer ".toList ++ t))).join.or cl.token = some hdr ∧ Sv.idOf (bearer hdr) = some j := by
  have hfind : ∃ j ck, findSession σ rq = some (j, s, ck) ∧
      ∃ hdr, (ck.map (fun t => some ("Bearer ".toList ++ t))).join.or cl.token = some hdr ∧ Sv.idOf (bearer hdr) = some j := by
    have hauth : rq.auth = cl.token := hc.auth
    cases hs with
    | fresh h1 h2 =>
      obtain ⟨j, hj⟩ := Option.isSome_iff_exists.1 hf
      refine ⟨j, some rq.freshCookie, ?_, "Bearer ".toList ++ rq.freshCookie, rfl, ?_⟩
      · unfold findSession
        rw [hauth, h1]
        simp only [hj]
        rfl
      · rw [bearer_token hc.cookie]; exact hj
    | session i hdr _ h1 h2 h3 h4 =>
      refine ⟨i, none, ?_, hdr, by rw [h1]; rfl, h2⟩
      unfold findSession
      rw [hauth, h1]
      simp only [h2, h3]
  obtain ⟨j, ck, hfs, hdr, hh1, hh2⟩ := hfind
  refine ⟨j, ck, ?_, hdr, hh1, hh2⟩
  have hty : rq.type = om := hc.type
  have hbody : rq.body = body := hc.body
  unfold accept
  rw [hty, hr, hbody]
  simp only
  rw [if_neg (by omega), hc.content]
  simp only [Bool.not_true, Bool.false_eq_true, if_false]
  rw [hfs]
  simp only
  unfold parseRequest
  rw [hl, hv, hs.keys, hk, hpl]
  simp only [Bool.not_true, Bool.false_eq_true, if_false]
  rw [hd]

/-- One exchange, with the server's reply. -/
theorem On.send_reply {R : Type} {dec : Bytes → Option R} {om sm : MsgType} {plain : Bytes} {nk : Option (Option Keys)} {req : Sv.Req}
    {r : Res (Client × CErr) (Client × R)}
    (ho : On mv σ0 kdf T G cl s p h (t1 ++ t2))
    (he : Prog.Ends (sendQ Sv.aead dec cl om sm plain nk : Proc (netSig X) _ _) t1 r)
    (hO : Opens Sv.aead) (hE : ∀ iv, (encryptWith Sv.aead cl.keys iv plain).isSome = true)
    (hp : precheck cl om sm nk = none) (hr : routeOf Sv.routes om = some sm)
    (hd : plain.length ≤ 16384 → Sv.decode om plain = some req) (hgr : ∀ k iv p b, Sv.aead.encrypt k iv p = some b → p.length ≤ b.length)
    (hk : encOk sm (nk.getD cl.keys) = true)
    (hG : ∀ σ rq, G σ rq → rq.storeOk = true ∧ (Sv.idOf rq.freshCookie).isSome = true)
    (hh : ∀ σ rq, G σ rq → decryptWith Sv.aead cl.keys rq.body = some plain → ∃ w resp data m, Sv.handle rq.oracle om req s.data s.keys σ.world = (w, some (resp, data, nk.getD cl.keys)) ∧
      dec (Sv.encode resp) = some m ∧ ∀ iv, (encryptWith Sv.aead (nk.getD cl.keys) iv (Sv.encode resp)).isSome = true) :
    ∃ h1 rq h2 w resp data m tok, h = h1 ++ .request rq :: h2 ∧ rq.type = om ∧ G (At (p ++ h1)) rq ∧
      Sv.handle rq.oracle om req s.data s.keys (At (p ++ h1)).world = (w, some (resp, data, nk.getD cl.keys)) ∧
      dec (Sv.encode resp) = some m ∧ r = .ok (⟨tok, nk.getD cl.keys, some sm, some (cl.nonInterop.getD (kdf rq))⟩, m) ∧
      (At (p ++ h1 ++ [.request rq])).world = w ∧ (∃ b ck, (step (At (p ++ h1)) rq).2 = .ok sm b ck) ∧
      decryptWith Sv.aead cl.keys rq.body = some plain ∧
      On mv σ0 kdf T G ⟨tok, nk.getD cl.keys, some sm, some (cl.nonInterop.getD (kdf rq))⟩ ⟨some sm, nk.getD cl.keys, data⟩
        (p ++ h1 ++ [.request rq]) h2 t2 := by
  obtain ⟨i, hs, hl, ht⟩ := ho
  obtain ⟨iv, body, o, hb, rfl, h3⟩ := ends_sendQ_sent hp hE he
  have hmem : (⟨.net ⟨om, cl.token, body⟩, (o : Option NetReply)⟩ : (netSig X).Deed) ∈ T := ht.part _ (by simp)
  obtain ⟨⟨q, hq⟩, hlen⟩ := ht.heard _ _ hmem
  have hq : o = some q := hq
  subst hq
  have hpl : plain.length ≤ 16384 := by
    refine Nat.le_trans ?_ hlen
    unfold encryptWith at hb
    split at hb
    · cases hb; exact Nat.le_refl _
    · exact hgr _ _ _ _ hb
  obtain ⟨g1, g2, rfl, hu1, ht1⟩ := talk_silent (silent_iv iv) ht.talk
  obtain ⟨g3, rq, g4, rfl, hu2, hc, har, ht2⟩ := talk_net ht1
  have hs' := hs.move (hu1.append hu2)
  have hgood := ht.good (g1 ++ g3) rq g4 (by simp)
  rw [List.append_assoc] at har ht2
  obtain ⟨hso, hid⟩ := hG _ _ hgood
  obtain ⟨w, resp, data, m, hhan, hdm, henc⟩ := hh _ _ hgood (by rw [hc.body]; exact opens_with hO hb)
  have hpre : om.validPrev cl.last = true ∧ encOk om cl.keys = true := by
    unfold precheck at hp
    split at hp
    · cases hp
    rename_i h1
    split at hp
    · cases hp
    split at hp
    · cases hp
    rename_i h2
    exact ⟨by simpa using h1, by simpa using h2⟩
  obtain ⟨j, ck, hacc, hdr, htok, hidof⟩ := accept_good hs' hl hc hlen hpre.1 hpre.2 hr (opens_with hO hb) (hd hpl) hid
  obtain ⟨b, hbb⟩ := Option.isSome_iff_exists.1 (henc rq.iv)
  have hty : rq.type = om := hc.type
  have hstep : step (At (p ++ (g1 ++ g3))) rq =
      (putSession { At (p ++ (g1 ++ g3)) with world := w } j ⟨some sm, nk.getD cl.keys, data⟩, .ok sm b ck) := by
    unfold step
    rw [hacc]
    simp only
    rw [hty, hhan]
    simp only
    rw [hso]
    simp only [Bool.not_true, Bool.false_eq_true, if_false]
    unfold respond
    rw [hk, hbb]
    rfl
  rw [hstep] at har
  have har : q = ⟨true, .code sm.code, ck.map fun t => some ("Bearer ".toList ++ t), kdf rq, b⟩ := har
  have hrr := h3 q rfl
  have hkk : (({ cl with last := some sm } : Client).setKeys nk).keys = nk.getD cl.keys := by cases nk <;> rfl
  rw [receive_good (p := Sv.encode resp) (m := m) (by rw [har]) (by rw [har]) (by rw [har]; cases ck <;> simp) (by rw [har, hkk]; exact opens_with hO hbb) hdm] at hrr
  have hst : At (p ++ (g1 ++ g3) ++ [.request rq]) =
      putSession { At (p ++ (g1 ++ g3)) with world := w } j ⟨some sm, nk.getD cl.keys, data⟩ := by
    rw [replay_snoc]
    change (step _ rq).1 = _
    rw [hstep]
  refine ⟨g1 ++ g3, rq, g4, w, resp, data, m, some hdr, by simp, hty, hgood, hhan, hdm, ?_, ?_, ⟨b, ck, by rw [hstep]⟩,
    by rw [hc.body]; exact opens_with hO hb, some j, ?_, rfl, ?_⟩
  · rw [hrr]
    simp only [resultQ]
    rw [hkk, har]
    simp only
    rw [show (({ cl with last := some sm } : Client).setKeys nk).token = cl.token by cases nk <;> rfl, htok]
    cases nk <;> rfl
  · rw [hst]; rfl
  · refine .session j hdr _ rfl hidof ?_ rfl
    rw [hst]
    simp only [putSession, if_true]
  · refine ⟨?_, fun d hd => ht.part d (by simp [hd]), ht.heard, ?_⟩
    · rw [hacc] at ht2
      exact ht2
    · rintro f1 rq' f2 rfl
      have := ht.good (g1 ++ g3 ++ [.request rq] ++ f1) rq' f2 (by simp)
      simpa using this

/-- One exchange. -/
theorem On.send {R : Type} {dec : Bytes → Option R} {om sm : MsgType} {plain : Bytes} {nk : Option (Option Keys)} {req : Sv.Req}
    {r : Res (Client × CErr) (Client × R)}
    (ho : On mv σ0 kdf T G cl s p h (t1 ++ t2))
    (he : Prog.Ends (sendQ Sv.aead dec cl om sm plain nk : Proc (netSig X) _ _) t1 r)
    (hO : Opens Sv.aead) (hE : ∀ iv, (encryptWith Sv.aead cl.keys iv plain).isSome = true)
    (hp : precheck cl om sm nk = none) (hr : routeOf Sv.routes om = some sm)
    (hd : plain.length ≤ 16384 → Sv.decode om plain = some req) (hgr : ∀ k iv p b, Sv.aead.encrypt k iv p = some b → p.length ≤ b.length)
    (hk : encOk sm (nk.getD cl.keys) = true)
    (hG : ∀ σ rq, G σ rq → rq.storeOk = true ∧ (Sv.idOf rq.freshCookie).isSome = true)
    (hh : ∀ σ rq, G σ rq → ∃ w resp data m, Sv.handle rq.oracle om req s.data s.keys σ.world = (w, some (resp, data, nk.getD cl.keys)) ∧
      dec (Sv.encode resp) = some m ∧ ∀ iv, (encryptWith Sv.aead (nk.getD cl.keys) iv (Sv.encode resp)).isSome = true) :
    ∃ h1 rq h2 w resp data m tok, h = h1 ++ .request rq :: h2 ∧ rq.type = om ∧ G (At (p ++ h1)) rq ∧
      Sv.handle rq.oracle om req s.data s.keys (At (p ++ h1)).world = (w, some (resp, data, nk.getD cl.keys)) ∧
      dec (Sv.encode resp) = some m ∧ r = .ok (⟨tok, nk.getD cl.keys, some sm, some (cl.nonInterop.getD (kdf rq))⟩, m) ∧
      (At (p ++ h1 ++ [.request rq])).world = w ∧
      On mv σ0 kdf T G ⟨tok, nk.getD cl.keys, some sm, some (cl.nonInterop.getD (kdf rq))⟩ ⟨some sm, nk.getD cl.keys, data⟩
        (p ++ h1 ++ [.request rq]) h2 t2 := by
  obtain ⟨h1, rq, h2, w, resp, data, m, tok, e1, e2, e3, e4, e5, e6, e7, -, -, e8⟩ := ho.send_reply he hO hE hp hr hd hgr hk hG
    (fun σ rq hg _ => hh σ rq hg)
  exact ⟨h1, rq, h2, w, resp, data, m, tok, e1, e2, e3, e4, e5, e6, e7, e8⟩

/-- What the client was answered, the server has replied. -/
theorem talk_served {i : Option Sv.Id} {p h : List (Event Sv M)} {t : Trace (netSig X)} (ht : Talk mv σ0 kdf i p h t) {s : Sent}
    {r : NetReply} (hm : (⟨.net s, some r⟩ : (netSig X).Deed) ∈ t) :
    ∃ h1 rq h2, h = h1 ++ .request rq :: h2 ∧ Carries s rq ∧
      Arrives (kdf rq) (step (replay mv σ0 (p ++ h1)) rq).2 r := by
  induction ht with
  | done => cases hm
  | other e ha ht ih =>
    obtain ⟨h1, rq, h2, rfl, h3, h4⟩ := ih hm
    refine ⟨e :: h1, rq, h2, rfl, h3, ?_⟩
    rw [List.append_assoc, List.singleton_append] at h4
    exact h4
  | iv x ht ih =>
    rcases List.mem_cons.1 hm with he | hm
    · cases he
    · exact ih hm
  | app e a ht ih =>
    rcases List.mem_cons.1 hm with he | hm
    · cases he
    · exact ih hm
  | lost s ht ih =>
    rcases List.mem_cons.1 hm with he | hm
    · cases he
    · exact ih hm
  | served s' rq r' hc hr ht ih =>
    rcases List.mem_cons.1 hm with he | hm
    · cases he
      refine ⟨[], rq, _, rfl, hc, ?_⟩
      rw [List.append_nil]
      exact hr _ rfl
    · obtain ⟨h1, rq', h2, rfl, h3, h4⟩ := ih hm
      refine ⟨.request rq :: h1, rq', h2, rfl, h3, ?_⟩
      rw [List.append_assoc, List.singleton_append] at h4
      exact h4

end Verif.Http
