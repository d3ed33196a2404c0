import Verif.Spec.Talk
import Verif.Lemmas.NetClient
/-!
Exchanges between a client and a server of the models.
-/
namespace Verif.Http
open Verif Verif.Types
variable {Sv : Server} {M : Type} {X : Sig} {mv : M → Sv.W → Sv.W} {σ0 : St Sv} {kdf : Request Sv → Bool}

local notation "At" => replay mv σ0

/-- Session `i` is the same after `h1`. -/
def Undisturbed (mv : M → Sv.W → Sv.W) (σ0 : St Sv) (i : Option Sv.Id) (p h1 : List (Event Sv M)) : Prop :=
  ∀ j, i = some j → (replay mv σ0 (p ++ h1)).sessions j = (replay mv σ0 p).sessions j

theorem apart_session {σ : St Sv} {i : Sv.Id} {e : Event Sv M} (h : Apart (some i) σ e) :
    (after mv σ e).sessions i = σ.sessions i := by
  cases e with
  | internal m => rfl
  | expire j =>
    have : i ≠ j := fun he => h (by rw [he])
    simp only [after]
    rw [if_neg this]
  | request rq =>
    have h : ¬ InSession σ rq i := h i rfl
    simp only [after]
    rcases step_sessions σ rq with ⟨h1, _⟩ | ⟨a, w, resp, data, keys, ha, _, h1, _⟩
    · rw [h1]
    · rw [h1, if_neg]
      exact fun he => h ⟨a, ha, he.symm⟩

theorem Undisturbed.refl (i : Option Sv.Id) (p : List (Event Sv M)) : Undisturbed mv σ0 i p [] := by
  intro j _
  rw [List.append_nil]

theorem Undisturbed.cons {i : Option Sv.Id} {p h1 : List (Event Sv M)} {e : Event Sv M} (ha : Apart i (At p) e)
    (h : Undisturbed mv σ0 i (p ++ [e]) h1) : Undisturbed mv σ0 i p (e :: h1) := by
  intro j hj
  have h1 := h j hj
  rw [List.append_assoc, List.singleton_append] at h1
  rw [h1, replay_snoc]
  subst hj
  exact apart_session ha

theorem Undisturbed.append {i : Option Sv.Id} {p h1 h2 : List (Event Sv M)} (h : Undisturbed mv σ0 i p h1)
    (h' : Undisturbed mv σ0 i (p ++ h1) h2) : Undisturbed mv σ0 i p (h1 ++ h2) := by
  intro j hj
  rw [← List.append_assoc, h' j hj, h j hj]

/-- Not a request. -/
def Silent (d : (netSig X).Deed) : Prop := ∀ s, d.1 ≠ .net s

theorem silent_iv (x : Bytes) : Silent (X := X) ⟨.iv, x⟩ := fun s h => by
  have h : (NetEff.iv : NetEff X) = .net s := h
  cases h

theorem silent_app (e : X.Eff) (a : X.Ans e) : Silent (X := X) ⟨.app e, a⟩ := fun s h => by
  have h : (NetEff.app e : NetEff X) = .net s := h
  cases h

theorem talk_silent {i : Option Sv.Id} {p h : List (Event Sv M)} {d : (netSig X).Deed} {t : Trace (netSig X)}
    (hd : Silent d) (ht : Talk mv σ0 kdf i p h (d :: t)) :
    ∃ h1 h2, h = h1 ++ h2 ∧ Undisturbed mv σ0 i p h1 ∧ Talk mv σ0 kdf i (p ++ h1) h2 t := by
  generalize hu : d :: t = u at ht
  induction ht with
  | done => cases hu
  | other e ha ht ih =>
    obtain ⟨h1, h2, rfl, h3, h4⟩ := ih hu
    refine ⟨e :: h1, h2, rfl, h3.cons ha, ?_⟩
    rw [List.append_assoc] at h4
    exact h4
  | iv x ht _ => cases hu; exact ⟨[], _, rfl, .refl _ _, by rw [List.append_nil]; exact ht⟩
  | app e a ht _ => cases hu; exact ⟨[], _, rfl, .refl _ _, by rw [List.append_nil]; exact ht⟩
  | lost s ht _ => cases hu; exact absurd rfl (hd s)
  | served s rq r hc hr ht _ => cases hu; exact absurd rfl (hd s)

theorem talk_quiet {i : Option Sv.Id} {p h : List (Event Sv M)} {u t : Trace (netSig X)}
    (hu : ∀ d ∈ u, Silent d) (ht : Talk mv σ0 kdf i p h (u ++ t)) :
    ∃ h1 h2, h = h1 ++ h2 ∧ Undisturbed mv σ0 i p h1 ∧ Talk mv σ0 kdf i (p ++ h1) h2 t := by
  induction u generalizing p h with
  | nil => exact ⟨[], h, rfl, .refl _ _, by rw [List.append_nil]; exact ht⟩
  | cons d u ih =>
    obtain ⟨h1, h2, rfl, h3, h4⟩ := talk_silent (hu d List.mem_cons_self) ht
    obtain ⟨h5, h6, rfl, h7, h8⟩ := ih (fun d hd => hu d (List.mem_cons_of_mem _ hd)) h4
    exact ⟨h1 ++ h5, h6, by simp, h3.append h7, by rw [← List.append_assoc]; exact h8⟩

/-- A request that was answered. -/
theorem talk_net {i : Option Sv.Id} {p h : List (Event Sv M)} {s : Sent} {r : NetReply} {t : Trace (netSig X)}
    (ht : Talk mv σ0 kdf i p h (⟨.net s, some r⟩ :: t)) :
    ∃ h1 rq h2, h = h1 ++ .request rq :: h2 ∧ Undisturbed mv σ0 i p h1 ∧ Carries s rq ∧
      Arrives (kdf rq) (step (At (p ++ h1)) rq).2 r ∧
      Talk mv σ0 kdf (turn i (accept (At (p ++ h1)) rq)) (p ++ h1 ++ [.request rq]) h2 t := by
  generalize hu : (⟨.net s, some r⟩ : (netSig X).Deed) :: t = u at ht
  induction ht with
  | done => cases hu
  | other e ha ht ih =>
    obtain ⟨h1, rq, h2, rfl, h3, h4, h5, h6⟩ := ih hu
    refine ⟨e :: h1, rq, h2, rfl, h3.cons ha, h4, ?_⟩
    rw [List.append_assoc, List.singleton_append] at h5 h6
    exact ⟨h5, h6⟩
  | iv x ht _ => cases hu
  | app e a ht _ => cases hu
  | lost s ht _ => cases hu
  | @served i p h t s rq r hc hr ht _ =>
    cases hu
    refine ⟨[], rq, _, rfl, .refl _ _, hc, ?_⟩
    rw [List.append_nil]
    exact ⟨hr _ rfl, ht⟩

/-- What client and server know of each other: either nothing yet, or the client's token names the session `i`, which has the
client's keys. -/
inductive Sync (σ : St Sv) (cl : Client) : Option Sv.Id → Sess Sv → Prop
  | fresh : cl.token = none → cl.keys = none → Sync σ cl none (Sess.new Sv)
  | session (i : Sv.Id) (hdr : List Char) (s : Sess Sv) : cl.token = some hdr → Sv.idOf (bearer hdr) = some i →
    σ.sessions i = some s → s.keys = cl.keys → Sync σ cl (some i) s

theorem Sync.keys {σ : St Sv} {cl : Client} {i : Option Sv.Id} {s : Sess Sv} (h : Sync σ cl i s) : s.keys = cl.keys := by
  cases h with
  | fresh _ h => exact h.symm
  | session _ _ _ _ _ _ h => exact h

theorem Sync.new (σ : St Sv) : Sync σ .new none (Sess.new Sv) := .fresh rfl rfl

theorem Sync.move {i : Option Sv.Id} {p h1 : List (Event Sv M)} {cl : Client} {s : Sess Sv} (h : Sync (At p) cl i s)
    (hu : Undisturbed mv σ0 i p h1) : Sync (At (p ++ h1)) cl i s := by
  cases h with
  | fresh h1 h2 => exact .fresh h1 h2
  | session i hdr s h1 h2 h3 h4 => exact .session i hdr s h1 h2 (by rw [hu i rfl]; exact h3) h4

theorem bearer_token {t : List Char} (h : ' ' ∉ t) : bearer ("Bearer ".toList ++ t) = t := by
  have h1 : splitFirst ' ' ("Bearer ".toList ++ t) = some ("Bearer".toList, t) := by
    change splitFirst ' ' ('B' :: 'e' :: 'a' :: 'r' :: 'e' :: 'r' :: ' ' :: t) = _
    simp [splitFirst]
  unfold bearer
  rw [h1]
  simp only
  have : ∀ l : List Char, ' ' ∉ l → l.takeWhile (· ≠ ' ') = l := by
    intro l hl
    induction l with
    | nil => rfl
    | cons x l ih =>
      have hx : x ≠ ' ' := fun he => hl (he ▸ List.mem_cons_self)
      have ih := ih fun h => hl (List.mem_cons_of_mem _ h)
      rw [List.takeWhile_cons, if_pos (decide_eq_true hx), ih]
  exact this t h

theorem code_injective {a b : MsgType} (h : a.code = b.code) : a = b := by
  have : ∀ t : MsgType, MsgType.ofCode t.code = some t := by
    intro t
    cases t <;> rfl
  have h1 := this a
  rw [h, this b] at h1
  exact (Option.some.inj h1).symm

theorem opens_with {A : Aead} (h : Opens A) {k : Option Keys} {iv p b : Bytes} (he : encryptWith A k iv p = some b) :
    decryptWith A k b = some p := by
  cases k with
  | none => exact he.symm
  | some k => exact h _ _ _ _ he

/-- One exchange: the server's handler gets the client's message in the client's session, and its answer is what the client
reads. The two stay in step if the server now has the client's keys. -/
theorem talk_exchange {A : Aead} (hA : Sv.aead = A) (hO : Opens A) {R : Type} {dec : Bytes → Option R} {cl cl' : Client}
    {om sm : MsgType} {plain iv body : Bytes} {nk : Option (Option Keys)} {r : NetReply} {m : R}
    (he : Exchanged A dec cl cl' om sm plain iv nk body r m)
    {i : Option Sv.Id} {p h : List (Event Sv M)} {s : Sess Sv} (hs : Sync (At p) cl i s) {t : Trace (netSig X)}
    (ht : Talk mv σ0 kdf i p h (⟨.iv, iv⟩ :: ⟨.net ⟨om, cl.token, body⟩, some r⟩ :: t)) :
    ∃ h1 rq h2 a w resp data keys, h = h1 ++ .request rq :: h2 ∧ accept (At (p ++ h1)) rq = some a ∧
      rq.type = om ∧ a.om = sm ∧ a.sess = s ∧ rq.body = body ∧ Sv.decode om plain = some a.req ∧
      Sv.handle rq.oracle om a.req s.data s.keys (At (p ++ h1)).world = (w, some (resp, data, keys)) ∧
      (step (At (p ++ h1)) rq).2 = .ok sm r.body a.cookie ∧
      r.kdfHeader = kdf rq ∧
      (cl'.keys = keys → dec (Sv.encode resp) = some m ∧
        Sync (At (p ++ h1 ++ [.request rq])) cl' (some a.id) ⟨some sm, keys, data⟩) ∧
      (At (p ++ h1 ++ [.request rq])).sessions a.id = some ⟨some sm, keys, data⟩ ∧
      Talk mv σ0 kdf (some a.id) (p ++ h1 ++ [.request rq]) h2 t := by
  obtain ⟨g1, g2, rfl, hu1, ht1⟩ := talk_silent (silent_iv iv) ht
  obtain ⟨g3, rq, g4, rfl, hu2, hc, har, ht2⟩ := talk_net ht1
  rw [List.append_assoc] at har ht2
  have hs' := hs.move (hu1.append hu2)
  generalize hσ : At (p ++ (g1 ++ g3)) = σ at *
  have hok : ∃ om' b tok, (step σ rq).2 = .ok om' b tok := by
    cases hr : (step σ rq).2 with
    | ok om' b tok => exact ⟨om', b, tok, rfl⟩
    | reject =>
      rw [hr] at har
      exact absurd ((show r.success = false from har).symm.trans he.success) (by decide)
  obtain ⟨om', b, tok, hok⟩ := hok
  rw [hok] at har
  obtain ⟨a, w, resp, data, keys, ha, hh, hso, h1, h2, h3⟩ := step_ok hok
  have hsess : ∀ j, (step σ rq).1.sessions j = if j = a.id then some ⟨some a.om, keys, data⟩ else σ.sessions j := by
    rcases step_sessions σ rq with ⟨_, h⟩ | ⟨a', w', resp', data', keys', ha', hh', h, _⟩
    · exact absurd hok (h _ _ _)
    · rw [ha] at ha'
      have := Option.some.inj ha'
      subst this
      rw [hh] at hh'
      simp only [Prod.mk.injEq, Option.some.injEq] at hh'
      obtain ⟨_, _, rfl, rfl⟩ := hh'
      exact h
  have har : r = ⟨true, .code om'.code, tok.map fun t => some ("Bearer ".toList ++ t), kdf rq, b⟩ := har
  have hom : om' = sm := by
    have := he.type
    rw [har] at this
    exact code_injective (by simpa using this)
  have hty : rq.type = om := hc.type
  obtain ⟨_, hfs, _, _, plain', hpl, hdec⟩ := accept_eq_some ha
  have hid : a.sess = s ∧ ∃ hdr, cl'.token = some hdr ∧ Sv.idOf (bearer hdr) = some a.id := by
    have htok := he.token
    rcases findSession_cases hfs with ⟨hck, hdr, ha1, ha2, ha3⟩ | ⟨hck, hfr, hnew, hno⟩
    · rw [hc.auth] at ha1
      have ha1 : cl.token = some hdr := ha1
      cases hs' with
      | fresh h1 _ => rw [h1] at ha1; cases ha1
      | session i hdr' s g1 g2 g3 g4 =>
        rw [g1] at ha1
        cases ha1
        rw [g2] at ha2
        cases ha2
        rw [g3] at ha3
        cases ha3
        refine ⟨rfl, hdr, ?_, g2⟩
        rw [htok, har, h3, hck, g1]
        rfl
    · cases hs' with
      | fresh h1' _ =>
        refine ⟨hnew, "Bearer ".toList ++ rq.freshCookie, ?_, ?_⟩
        · rw [htok, har, h3, hck]
          rfl
        · rw [bearer_token hc.cookie]
          exact hfr
      | session i hdr' s g1 g2 g3 g4 =>
        exact absurd ⟨hdr', by rw [hc.auth]; exact g1, g2, g3⟩ (hno i s)
  obtain ⟨hsame, hdr, htok, hidof⟩ := hid
  have hdecode : Sv.decode om plain = some a.req := by
    rw [hty] at hdec
    rw [hsame, hs'.keys, hA, hc.body, opens_with hO he.sent] at hpl
    cases hpl
    exact hdec
  have hst : At (p ++ (g1 ++ g3) ++ [.request rq]) = (step σ rq).1 := by
    rw [replay_snoc, hσ]
    rfl
  have hss : (At (p ++ (g1 ++ g3) ++ [.request rq])).sessions a.id = some ⟨some sm, keys, data⟩ := by
    rw [hst, hsess, if_pos rfl, ← h1, hom]
  refine ⟨g1 ++ g3, rq, g4, a, w, resp, data, keys, by simp, by rw [hσ]; exact ha, hty, by rw [← h1, hom], hsame, hc.body,
    hdecode, ?_, ?_, by rw [har], ?_, hss, ?_⟩
  · rw [hσ, ← hty, ← hsame]
    exact hh
  · rw [hσ, hok, hom, har, h3]
  · intro hk
    refine ⟨?_, .session a.id hdr _ htok hidof hss hk.symm⟩
    obtain ⟨q, hq1, hq2⟩ := he.reads
    rw [har, hk] at hq1
    rw [hA] at h2
    have hq1 : decryptWith A keys b = some q := hq1
    rw [opens_with hO h2] at hq1
    cases hq1
    exact hq2
  · have : turn i (accept σ rq) = some a.id := by rw [ha]; rfl
    rw [this] at ht2
    exact ht2

end Verif.Http
