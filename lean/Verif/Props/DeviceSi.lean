import Verif.Props.Device
import Verif.Props.SiClient
/-!
Service info of the device within the whole client: its messages are those of a run of service info alone, under the session's
key (C46, C48, C54).
-/
namespace Verif.Http
open Verif
variable {X : Sig} {R : Type} {A : Aead} {dec : Bytes → Option R} {c : Client} {om sm : MsgType} {plain : Bytes}
  {nk : Option (Option Keys)}

theorem keys_receive (c : Client) (r : NetReply) : (receive A dec c sm r).1.keys = c.keys := by
  unfold receive
  split
  · rw [noteKdf_eq]
  · rw [noteKdf_eq]
  · split
    · rw [noteKdf_eq]
    · rw [noteKdf_eq]; rfl
    · rw [noteKdf_eq]

/-- A failed exchange does not change the key, if no new one was given. -/
theorem fails_sendQ {t : Trace (netSig X)} {c' : Client} {e : CErr}
    (h : Prog.Ends (sendQ A dec c om sm plain none : Proc (netSig X) _ _) t (.err (c', e))) : c'.keys = c.keys := by
  unfold sendQ at h
  split at h
  · next e' _ =>
    have := (Prog.ends_ret h).2
    injection this with this
    have := congrArg Prod.fst this
    simp only at this
    rw [← this]
    unfold refused
    split <;> rfl
  obtain ⟨iv, t', rfl, h1⟩ := Prog.ends_act h
  cases hb : encryptWith A c.keys iv plain with
  | none =>
    have h1 : Prog.Ends (Proc.bind (Proc.some? _ (encryptWith A c.keys iv plain)) _) t' (.err (c', e)) := h1
    rw [hb] at h1
    have := (Prog.ends_ret h1).2
    injection this with this
    have := congrArg Prod.fst this
    simp only at this
    rw [← this]
  | some body =>
    have h1 : Prog.Ends (Proc.bind (Proc.some? _ (encryptWith A c.keys iv plain)) _) t' (.err (c', e)) := h1
    rw [hb] at h1
    obtain ⟨r, t2, rfl, h2⟩ := Prog.ends_act (S := netSig X) (e := .net ⟨om, c.token, body⟩) h1
    cases hr : (r : Option NetReply) with
    | none =>
      have hr : r = none := hr
      subst hr
      have := (Prog.ends_ret h2).2
      injection this with this
      have := congrArg Prod.fst this
      simp only at this
      rw [← this]
      rfl
    | some r' =>
      have hr : r = some r' := hr
      subst hr
      have h2 : Prog.Ends (receivedQ (receive A dec (({ c with last := some sm } : Client).setKeys none) sm r') :
        Proc (netSig X) _ _) t2 (.err (c', e)) := h2
      have hk := keys_receive (A := A) (dec := dec) (sm := sm) (({ c with last := some sm } : Client).setKeys none) r'
      rcases hx : receive A dec (({ c with last := some sm } : Client).setKeys none) sm r' with ⟨c2, m | e2 | _⟩
      · rw [hx] at h2
        cases (Prog.ends_ret h2).2
      · rw [hx] at h2 hk
        have := (Prog.ends_ret h2).2
        injection this with this
        have := congrArg Prod.fst this
        simp only at this
        rw [← this]
        exact hk
      · rw [hx] at h2
        cases (Prog.ends_ret h2).2

end Verif.Http

namespace Verif.Device
open Verif Verif.Voucher Verif.Types Verif.ServiceInfo Verif.Fs
variable {R : DevEnv} {c : Bool} {A : Http.Aead}

/-! ### Service info within the client -/

/-- What a message of service info may do. -/
def Asks (e : (sig R).Eff) : Prop := e = .iv ∨ ∃ s, e = .net s ∧ s.type = .to2DeviceServiceInfo

theorem siRun_ends {α : Type} {ks : Http.Keys} : ∀ (p : Prog SiClient.sig α) (cl cl' : Http.Client) (t : Trace (sig R)) (a : α),
    cl.keys = some ks → Prog.Ends (siRun A p cl : Step R _) t (.ok (cl', a)) →
    cl'.keys = some ks ∧ ∃ ts, Conveyed A ks ts t ∧ Prog.Ends p ts a := by
  intro p
  induction p with
  | ret x =>
    intro cl cl' t a hk h
    obtain ⟨rfl, h⟩ := Prog.ends_ret h
    cases h
    exact ⟨hk, [], .nil, .nil _⟩
  | act e k ih =>
    intro cl cl' t a hk h
    cases e with
    | host m op =>
      obtain ⟨b, t', rfl, h1⟩ := Prog.ends_act h
      obtain ⟨h2, ts, h3, h4⟩ := ih b cl cl' t' a hk h1
      exact ⟨h2, ⟨.host m op, b⟩ :: ts, .host h3, .cons h4⟩
    | exchange si =>
      unfold siRun at h
      obtain ⟨r, t1, t2, rfl, h1, h2⟩ := Prog.ends_bind h
      cases r with
      | panic => cases (Prog.ends_ret h2).2
      | err x =>
        obtain ⟨cl2, e⟩ := x
        have hk2 : cl2.keys = some ks := (Http.fails_sendQ h1).trans hk
        obtain ⟨h3, ts, h4, h5⟩ := ih none cl2 cl' t2 a hk2 h2
        refine ⟨h3, ⟨.exchange si, (none : Option OwnerSi)⟩ :: ts, .failure ?_ h4, .cons h5⟩
        exact Http.only_sendQ (X := ops R) (P := Asks) (.inl rfl) (fun s hs => .inr ⟨s, rfl, hs⟩) t1 ⟨_, h1⟩
      | ok x =>
        obtain ⟨cl2, m⟩ := x
        obtain ⟨iv, body, r, rfl, hx⟩ := Http.ends_sendQ h1
        have hk2 : cl2.keys = some ks := hx.keys.trans hk
        obtain ⟨h3, ts, h4, h5⟩ := ih (some m) cl2 cl' t2 a hk2 h2
        obtain ⟨pl, hpl, hm⟩ := hx.reads
        refine ⟨h3, ⟨.exchange si, (some m : Option OwnerSi)⟩ :: ts, .message ?_ hx.success hx.type ?_ hm h4, .cons h5⟩
        · rw [← hk]; exact hx.sent
        · rw [← hk2]; exact hpl

theorem siRun_host {α : Type} {ks : Http.Keys} {m : SiModule} {op : SiClient.Op} {x : op.Ans} :
    ∀ (p : Prog SiClient.sig α) (cl : Http.Client) (t u : Trace (sig R)),
    cl.keys = some ks → Prog.Does (siRun A p cl : Step R _) (t ++ ⟨.app (.host m op), x⟩ :: u) →
    ∃ ts us, Conveyed A ks ts t ∧ Prog.Does p (ts ++ ⟨.host m op, x⟩ :: us) := by
  intro p
  induction p with
  | ret y =>
    intro cl t u hk ⟨q, h⟩
    exact absurd (Prog.steps_ret h).1 (by simp)
  | act e k ih =>
    intro cl t u hk ⟨q, h⟩
    cases e with
    | host m' op' =>
      rcases Prog.steps_act h with ⟨h, _⟩ | ⟨b, t', ht, h1⟩
      · exact absurd h (by simp)
      cases t with
      | nil =>
        simp only [List.nil_append, List.cons.injEq] at ht
        obtain ⟨h2, rfl⟩ := ht
        cases h2
        exact ⟨[], [], .nil, _, .cons (.nil _)⟩
      | cons d t =>
        simp only [List.cons_append, List.cons.injEq] at ht
        obtain ⟨rfl, rfl⟩ := ht
        obtain ⟨ts, us, h3, q', h4⟩ := ih b cl t u hk ⟨q, h1⟩
        exact ⟨⟨.host m' op', b⟩ :: ts, us, .host h3, q', .cons h4⟩
    | exchange si =>
      unfold siRun at h
      have hs : Prog.Only Asks (Http.sendQ (X := ops R) A R.decOwnerSi cl .to2DeviceServiceInfo .to2OwnerServiceInfo
          (R.encDeviceSi si) none : Proc (sig R) _ _) :=
        Http.only_sendQ (X := ops R) (P := Asks) (.inl rfl) (fun s hs => .inr ⟨s, rfl, hs⟩)
      have hna : ¬ Asks (R := R) (.app (.host m op)) := by rintro (h | ⟨s, h, _⟩) <;> cases h
      rcases Prog.steps_bind h with ⟨p', h1, _⟩ | ⟨r, t1, t2, he, h1, h2⟩
      · exact absurd (hs _ ⟨_, h1⟩ _ (List.mem_append_right _ (List.mem_cons_self ..))) hna
      have hn : (⟨.app (.host m op), x⟩ : (sig R).Deed) ∉ t1 := fun hm => hna (hs _ ⟨_, h1⟩ _ hm)
      obtain ⟨t3, rfl, rfl⟩ : ∃ t3, t = t1 ++ t3 ∧ t2 = t3 ++ ⟨.app (.host m op), x⟩ :: u := by
        rw [List.append_eq_append_iff] at he
        rcases he with ⟨as, rfl, h4⟩ | ⟨bs, rfl, rfl⟩
        · cases as with
          | nil => exact ⟨[], by simp, by simpa using h4.symm⟩
          | cons y as =>
            rw [List.cons_append, List.cons.injEq] at h4
            obtain ⟨rfl, _⟩ := h4
            exact absurd (by simp) hn
        · exact ⟨bs, rfl, rfl⟩
      cases r with
      | panic => exact absurd (Prog.steps_ret h2).1 (by simp)
      | err y =>
        obtain ⟨cl2, e⟩ := y
        have hk2 : cl2.keys = some ks := (Http.fails_sendQ h1).trans hk
        obtain ⟨ts, us, h4, q', h5⟩ := ih none cl2 t3 u hk2 ⟨q, h2⟩
        exact ⟨⟨.exchange si, (none : Option OwnerSi)⟩ :: ts, us, .failure (hs t1 ⟨_, h1⟩) h4, q', .cons h5⟩
      | ok y =>
        obtain ⟨cl2, m2⟩ := y
        obtain ⟨iv, body, r, rfl, hx⟩ := Http.ends_sendQ h1
        have hk2 : cl2.keys = some ks := hx.keys.trans hk
        obtain ⟨ts, us, h4, q', h5⟩ := ih (some m2) cl2 t3 u hk2 ⟨q, h2⟩
        obtain ⟨pl, hpl, hm⟩ := hx.reads
        refine ⟨⟨.exchange si, (some m2 : Option OwnerSi)⟩ :: ts, us, .message ?_ hx.success hx.type ?_ hm h4, q', .cons h5⟩
        · rw [← hk]; exact hx.sent
        · rw [← hk2]; exact hpl

variable {w : Credential.Surroundings} {h : SiClient.Host} {l : Credential.Location} {cr : Credential.Cred} {to1d : Sign1}
  {cl cl' : Http.Client} {ks : Http.Keys} {t : Trace (sig R)}

theorem serviceInfos_ends {b : Bool} (hk : cl.keys = some ks) (he : Prog.Ends (serviceInfos A h cl : Step R _) t (.ok (cl', b))) :
    cl'.keys = some ks ∧ ∃ ts, Conveyed A ks ts t ∧ Prog.Ends (SiClient.perform h R.encVal R.decVal) ts (.ok b) := by
  obtain ⟨⟨cl2, r⟩, t1, t2, rfl, h1, h2⟩ := Proc.ends_bind he
  cases r with
  | err e => exact (Proc.ends_fail h2).elim
  | panic => cases (Prog.ends_ret h2).2
  | ok b' =>
    obtain ⟨rfl, h3⟩ := Proc.ends_pure h2
    cases h3
    rw [List.append_nil]
    exact siRun_ends _ _ _ _ _ hk h1

theorem proveDevice_keys {kx : KeyExchange R.K} {n6 n7 : Bytes}
    (he : Prog.Ends (proveDevice c A cr cl kx n6 n7 ks : Step R _) t (.ok cl')) : cl'.keys = some ks := by
  obtain ⟨_, t1, t2, rfl, h1, h2⟩ := Proc.ends_bind he
  obtain ⟨⟨cl2, m⟩, u1, u2, rfl, h3, h4⟩ := Proc.ends_bind h2
  obtain ⟨rfl, h5⟩ := Proc.ends_pure h4
  cases h5
  obtain ⟨_, _, _, _, hx⟩ := ends_say h3
  exact hx.keys

theorem ready_keys (he : Prog.Ends (ready A cl : Step R _) t (.ok cl')) : cl'.keys = cl.keys := by
  obtain ⟨⟨cl2, m⟩, u1, u2, rfl, h3, h4⟩ := Proc.ends_bind he
  obtain ⟨rfl, h5⟩ := Proc.ends_pure h4
  cases h5
  obtain ⟨_, _, _, _, hx⟩ := ends_say h3
  exact hx.keys

theorem ends_files {α : Type} {a : α} : ∀ (p : Prog Fs.sig α) (t : Trace (sig R)), Prog.Ends (files p) t a →
    ∃ u, t = onFiles u ∧ Prog.Ends p u a := by
  intro p
  induction p with
  | ret x =>
    intro t he
    obtain ⟨rfl, h⟩ := Prog.ends_ret he
    cases h
    exact ⟨[], rfl, .nil _⟩
  | act o k ih =>
    intro t he
    obtain ⟨b, t', rfl, h1⟩ := Prog.ends_act he
    obtain ⟨u, rfl, h2⟩ := ih b t' h1
    exact ⟨⟨o, b⟩ :: u, rfl, .cons h2⟩

theorem ends_writeFile {ε : Type} {e : ε} {p : Path} {b : Bytes} {t : Trace Fs.sig} (he : Prog.Ends (writeFile e p b) t (.ok ())) :
    t = [⟨.create p, true⟩, ⟨.append p b, true⟩] := by
  obtain ⟨a1, t1, rfl, h1⟩ := Proc.ends_ask_bind he
  obtain ⟨g1, h2⟩ := Proc.ends_check_bind h1
  obtain ⟨a2, t2, rfl, h3⟩ := Proc.ends_ask_bind h2
  obtain ⟨rfl, g2⟩ := Proc.ends_check h3
  have g1 : a1 = true := g1
  have g2 : a2 = true := g2
  rw [g1, g2]

theorem settle_ends (he : Prog.Ends (settle w l cl : Step R _) t (.ok ())) : Settled w l t := by
  obtain ⟨_, t1, t2, rfl, h1, h2⟩ := Proc.ends_bind he
  obtain ⟨u1, rfl, h3⟩ := ends_files _ _ (Proc.ends_mapErr h1)
  obtain ⟨u2, rfl, h4⟩ := ends_files _ _ (Proc.ends_mapErr h2)
  have h3 := ends_writeFile h3
  subst h3
  exact ⟨u2, rfl, h4⟩

/-- A successful attempt. -/
theorem to2_ends (C : CodecLaws R.E) (S : Sized R) {b : Bool} (he : Prog.Ends (to2 c A w h l cr to1d .new : Step R _) t (.ok b)) :
    ∃ n5 iv reply rest, t = hello cr n5 iv reply ++ rest ∧ Onboarded c A w h l cr to1d n5 reply rest b := by
  obtain ⟨⟨cl1, kx, ks, n6⟩, t1, t2, rfl, h1, h2⟩ := Proc.ends_bind he
  obtain ⟨-, n5, iv, reply, rest, p, rfl, hv, hs⟩ := authenticate_ok C S h1
  obtain ⟨n7, t3, t4, rfl, h3, h4⟩ := Proc.ends_bind h2
  have h3 := ends_freshNonce h3
  subst h3
  obtain ⟨cl2, t5, t6, rfl, h5, h6⟩ := Proc.ends_bind h4
  have hk2 := proveDevice_keys h5
  obtain ⟨cl3, t7, t8, rfl, h7, h8⟩ := Proc.ends_bind h6
  have hk3 := (ready_keys h7).trans hk2
  obtain ⟨⟨cl4, b'⟩, t9, t10, rfl, h9, h10⟩ := Proc.ends_bind h8
  obtain ⟨hk4, ts, hc, hp⟩ := serviceInfos_ends hk3 h9
  obtain ⟨_, t11, t12, rfl, h11, h12⟩ := Proc.ends_bind h10
  obtain ⟨_, t13, t14, rfl, h13, h14⟩ := Proc.ends_bind h12
  obtain ⟨rfl, hb⟩ := Proc.ends_pure h14
  cases hb
  obtain ⟨⟨cl5, m⟩, t15, t16, rfl, h15, h16⟩ := Proc.ends_bind h13
  obtain ⟨rfl, hm⟩ := Proc.ends_check h16
  have hm : n7 = m := by simpa using hm
  subst hm
  obtain ⟨iv', body, r, rfl, hx⟩ := ends_say h15
  obtain ⟨pl, hpl, hd⟩ := hx.reads
  refine ⟨n5, iv, reply, _, List.append_assoc _ _ _, p, ks,
    rest ++ (⟨.app .nonce, (some n7 : Option Bytes)⟩ :: (t5 ++ t7)), ts, t9, t11,
    [⟨.iv, iv'⟩, ⟨.net ⟨.to2Done, cl4.token, body⟩, some r⟩], by simp, ?_, ?_, hc, hp, settle_ends h11, ?_⟩
  · obtain ⟨s, h, key, es, ps, a1, a2, a3, a4, a5, a6, a7, a8, a9, a10, a11⟩ := hv
    refine ⟨s, h, key, es, ps, a1, a2, a3, a4, a5, a6, a7, a8, a9, fun i e hi => ?_, a11⟩
    obtain ⟨tok, b, r, h, h'⟩ := a10 i e hi
    exact ⟨tok, b, r, List.mem_append_left _ h, h'⟩
  · obtain ⟨k, f, key, g1, g2⟩ := hs
    exact ⟨k, f, key, List.mem_append_left _ g1, g2⟩
  · refine ⟨n7, cl4.token, body, r, pl, by simp, by simp, hx.success, ?_, hd⟩
    rw [← hk4]
    have := hx.keys
    simp only [Option.getD_none] at this
    rw [← this]
    exact hpl

/-! ### Where deeds happen in an attempt -/

theorem conveyed_mem {ts : Trace SiClient.sig} {t : Trace (sig R)} (hc : Conveyed A ks ts t) {si : Types.ServiceInfo} {m : OwnerSi}
    (hm : (⟨.exchange si, (some m : Option OwnerSi)⟩ : SiClient.sig.Deed) ∈ ts) :
    ∃ tok body r plain, (⟨.net ⟨.to2DeviceServiceInfo, tok, body⟩, some r⟩ : (sig R).Deed) ∈ t ∧ r.success = true ∧
      Http.decryptWith A (some ks) r.body = some plain ∧ R.decOwnerSi plain = some m := by
  induction hc with
  | nil => cases hm
  | host h ih =>
    rcases List.mem_cons.1 hm with e | hm
    · cases e
    · obtain ⟨tok, body, r, plain, h1, h2⟩ := ih hm
      exact ⟨tok, body, r, plain, List.mem_cons_of_mem _ h1, h2⟩
  | message h1 h2 h3 h4 h5 h ih =>
    rcases List.mem_cons.1 hm with e | hm
    · cases e
      exact ⟨_, _, _, _, List.mem_cons_of_mem _ (List.mem_cons_self ..), h2, h4, h5⟩
    · obtain ⟨tok, body, r, plain, h1, h2⟩ := ih hm
      exact ⟨tok, body, r, plain, List.mem_cons_of_mem _ (List.mem_cons_of_mem _ h1), h2⟩
  | failure h1 h ih =>
    rcases List.mem_cons.1 hm with e | hm
    · cases e
    · obtain ⟨tok, body, r, plain, h1, h2⟩ := ih hm
      exact ⟨tok, body, r, plain, List.mem_append_right _ h1, h2⟩

/-- Once service info has ended well, the owner's server has said that it is complete. -/
theorem complete_of {ts : Trace SiClient.sig} {t : Trace (sig R)} {b : Bool} (hc : Conveyed A ks ts t)
    (he : Prog.Ends (SiClient.perform h R.encVal R.decVal) ts (.ok b)) : Complete A ks t := by
  obtain ⟨ms, r, h1, h2, _⟩ := SiClient.C54_reboot R.encVal R.decVal ts b he
  have hr : r ∈ SiClient.received ts := by rw [h1]; simp
  obtain ⟨⟨e, a⟩, hd, hr⟩ := List.mem_flatMap.1 hr
  cases e with
  | host m o => simp at hr
  | exchange si =>
    cases ha : (a : Option OwnerSi) with
    | none =>
      have ha : a = none := ha
      subst ha
      simp at hr
    | some x =>
      have ha : a = some x := ha
      subst ha
      simp only [List.mem_singleton] at hr
      subst hr
      obtain ⟨tok, body, r', plain, g1, g2, g3, g4⟩ := conveyed_mem hc hd
      exact ⟨tok, body, r', plain, r, g1, g2, g3, g4, h2⟩

/-- What service info sends is encrypted. -/
def Closed (A : Http.Aead) (ks : Http.Keys) (e : (sig R).Eff) : Prop := ∀ s, e = .net s → Sealed A ks s

theorem closed_sendQ {α : Type} {dec : Bytes → Option α} {om sm : MsgType} {plain : Bytes} (hk : cl.keys = some ks) :
    Prog.Only (S := sig R) (Closed A ks) (Http.sendQ (X := ops R) A dec cl om sm plain none : Proc (sig R) _ _) := by
  intro t ht d hd s hs
  rcases Http.does_sendQ ht with rfl | ⟨iv, rfl⟩ | ⟨iv, body, r, rfl, _, hb⟩
  · cases hd
  · rw [List.mem_singleton.1 hd] at hs
    cases hs
  · rcases List.mem_cons.1 hd with hd | hd
    · rw [hd] at hs
      cases hs
    · rw [List.mem_singleton.1 hd] at hs
      cases hs
      rw [hk] at hb
      exact ⟨iv, plain, hb⟩

theorem closed_siRun {α : Type} : ∀ (p : Prog SiClient.sig α) (cl : Http.Client), cl.keys = some ks →
    Prog.Only (S := sig R) (Closed A ks) (siRun A p cl : Step R _) := by
  intro p
  induction p with
  | ret x => exact fun cl hk => Prog.only_ret
  | act e k ih =>
    intro cl hk
    cases e with
    | host m o => exact Prog.only_act nofun fun b => ih b cl hk
    | exchange si =>
      intro t ⟨q, ht⟩
      unfold siRun at ht
      rcases Prog.steps_bind ht with ⟨p', h1, _⟩ | ⟨r, t1, t2, rfl, h1, h2⟩
      · exact closed_sendQ hk t ⟨_, h1⟩
      · intro d hd
        rcases List.mem_append.1 hd with hd | hd
        · exact closed_sendQ hk t1 ⟨_, h1⟩ d hd
        · cases r with
          | panic =>
            rw [(Prog.steps_ret h2).1] at hd
            cases hd
          | err x => exact ih none x.1 ((Http.fails_sendQ h1).trans hk) t2 ⟨_, h2⟩ d hd
          | ok x =>
            obtain ⟨_, _, _, _, hx⟩ := Http.ends_sendQ h1
            exact ih (some x.2) x.1 (hx.keys.trans hk) t2 ⟨_, h2⟩ d hd

theorem closed_serviceInfos (hk : cl.keys = some ks) : Prog.Only (S := sig R) (Closed A ks) (serviceInfos A h cl : Step R _) :=
  Proc.only_bind (closed_siRun _ _ hk) fun ⟨_, r⟩ => match r with
    | .ok _ => Proc.only_pure
    | .err _ => Proc.only_fail
    | .panic => Prog.only_ret

theorem only_files_of {P : (sig R).Eff → Prop} {Q : Fs.Op → Prop} (hP : ∀ o, Q o → P (.app (.fs o))) {α : Type} :
    ∀ p : Prog Fs.sig α, Prog.Only (S := Fs.sig) Q p → Prog.Only P (files (R := R) p) := by
  intro p
  induction p with
  | ret x => exact fun _ => Prog.only_ret
  | act o k ih =>
    intro hp
    refine Prog.only_act (hP o ?_) fun b => ih b fun t ht d hd => ?_
    · have b : o.Ans := by cases o <;> first | exact true | exact (none : Option Bytes)
      exact hp [⟨o, b⟩] ⟨_, .cons (.nil _)⟩ ⟨o, b⟩ (List.mem_singleton.2 rfl)
    · obtain ⟨q, ht⟩ := ht
      exact hp (⟨o, b⟩ :: t) ⟨q, .cons ht⟩ d (List.mem_cons_of_mem _ hd)

theorem only_writeFile {ε : Type} {e : ε} {p : Path} {b : Bytes} {P : Fs.Op → Prop} (h1 : P (.create p)) (h2 : P (.append p b)) :
    Prog.Only (S := Fs.sig) P (writeFile e p b) :=
  Proc.only_bind (Proc.only_ask h1) fun _ => Proc.only_bind Proc.only_check fun _ => Proc.only_bind (Proc.only_ask h2) fun _ =>
    Proc.only_check

theorem only_deactivate {C : Credential.Codec} {P : Fs.Op → Prop} (h1 : P (.remove l.path)) (h2 : P (.read l.path))
    (h3 : P (.create l.path)) (h4 : ∀ b, P (.append l.path b)) : Prog.Only (S := Fs.sig) P (Credential.deactivate C l) := by
  unfold Credential.deactivate
  split
  · exact Proc.only_pure
  · exact Proc.only_bind (Proc.only_ask h1) fun _ => Proc.only_check
  · exact Proc.only_bind (Proc.only_bind (Proc.only_ask h2) fun _ => Proc.only_some?) fun _ =>
      Proc.only_bind Proc.only_some? fun _ => only_writeFile h3 (h4 _)

theorem marks_settle {P : (sig R).Eff → Prop} (hP : ∀ o, Marks w l o → P (.app (.fs o))) : Prog.Only P (settle w l cl : Step R _) :=
  Proc.only_bind
    (Proc.only_mapErr (only_files_of hP _ (only_writeFile (.inl rfl) (.inr (.inl rfl))))) fun _ =>
    Proc.only_mapErr (only_files_of hP _ (only_deactivate (.inr (.inr (.inl rfl))) (.inr (.inr (.inr (.inl rfl))))
      (.inr (.inr (.inr (.inr (.inl rfl))))) fun b => .inr (.inr (.inr (.inr (.inr ⟨b, rfl⟩))))))

/-- The four ways in which something that matters happens after the owner was vetted. -/
def Way (A : Http.Aead) (w : Credential.Surroundings) (h : SiClient.Host) (l : Credential.Location) (ks : Http.Keys)
    (v : Trace (sig R)) (d : (sig R).Deed) : Prop :=
  (∃ s, d.1 = .net s ∧ s.type = .to2ProveDevice) ∨ (∃ s, d.1 = .net s ∧ Sealed A ks s) ∨
  (∃ m op a x ts si, d = ⟨.app (.host m op), a⟩ ∧ v = x ++ si ∧ (∀ d ∈ x, ∀ m o, d.1 ≠ .app (.host m o)) ∧ Conveyed A ks ts si ∧
    Proc.Reaches (SiClient.perform h R.encVal R.decVal) ts ⟨.host m op, a⟩) ∨
  (∃ o, d.1 = .app (.fs o) ∧ Marks w l o ∧ Complete A ks v)

/-- What a message may do. -/
def Talks (om : MsgType) (e : (sig R).Eff) : Prop := e = .iv ∨ (∃ p, e = .app (.sign p)) ∨ ∃ s, e = .net s ∧ s.type = om

theorem talks_say {α : Type} {dec : Bytes → Option α} {om sm : MsgType} {plain : Bytes} {nk : Option (Option Http.Keys)} :
    Prog.Only (Talks om) (say A dec cl om sm plain nk : Step R _) :=
  only_say (.inl rfl) fun s hs => .inr (.inr ⟨s, rfl, hs⟩)

theorem talks_weighty {om : MsgType} {d : (sig R).Deed} (hd : Weighty d.1) (ht : Talks om d.1) :
    ∃ s, d.1 = .net s ∧ s.type = om := by
  rcases ht with e | ⟨p, e⟩ | ht
  · rw [e] at hd; exact hd.elim
  · rw [e] at hd; exact hd.elim
  · exact ht

theorem sealed_say {α : Type} {dec : Bytes → Option α} {om sm : MsgType} {plain : Bytes} {d : (sig R).Deed} {v : Trace (sig R)}
    (hk : cl.keys = some ks) (hd : Weighty d.1) (hr : Proc.Reaches (say A dec cl om sm plain none : Step R _) v d) :
    ∃ s, d.1 = .net s ∧ Sealed A ks s := by
  obtain ⟨s, hs, _⟩ := talks_weighty hd (talks_say _ hr.choose_spec d (by simp))
  obtain ⟨e, a⟩ := d
  simp only at hs
  subst hs
  obtain ⟨iv, _, _, hb, _⟩ := reaches_say hr
  rw [hk] at hb
  exact ⟨s, rfl, iv, plain, hb⟩

theorem reaches_serviceInfos {d : (sig R).Deed} {v : Trace (sig R)} (hk : cl.keys = some ks) (hd : Weighty d.1)
    (hr : Proc.Reaches (serviceInfos A h cl : Step R _) v d) :
    (∃ s, d.1 = .net s ∧ Sealed A ks s) ∨ ∃ m op a ts, d = ⟨.app (.host m op), a⟩ ∧ Conveyed A ks ts v ∧
      Proc.Reaches (SiClient.perform h R.encVal R.decVal) ts ⟨.host m op, a⟩ := by
  have hc := closed_serviceInfos (R := R) (A := A) (h := h) hk _ hr.choose_spec d (by simp)
  have hr : Proc.Reaches (siRun A (SiClient.perform h R.encVal R.decVal) cl : Step R _) v d := by
    rcases Proc.reaches_bind hr with hr | ⟨⟨_, r⟩, u1, u2, rfl, h1, hr⟩
    · exact hr
    · cases r with
      | ok b => exact absurd (Proc.does_pure hr.choose_spec) (by simp)
      | err e => exact absurd (Proc.does_fail hr.choose_spec) (by simp)
      | panic => exact absurd (Prog.steps_ret hr.choose_spec.choose_spec).1 (by simp)
  have hk' := only_siRun (R := R) (A := A) (cl := cl) (P := fun e => (∃ m o, e = .app (.host m o)) ∨ e = .iv ∨ ∃ s, e = .net s)
    (fun m o => .inl ⟨m, o, rfl⟩) (.inr (.inl rfl)) (fun s _ => .inr (.inr ⟨s, rfl⟩)) _ _ hr.choose_spec d (by simp)
  obtain ⟨e, a⟩ := d
  rcases hk' with ⟨m, o, rfl⟩ | rfl | ⟨s, rfl⟩
  · obtain ⟨u, hu⟩ := hr
    obtain ⟨ts, us, h1, h2⟩ := siRun_host _ _ _ _ hk hu
    exact .inr ⟨m, o, a, ts, rfl, h1, us, h2⟩
  · exact hd.elim
  · exact .inl ⟨s, rfl, hc s rfl⟩

theorem noHost {om : MsgType} {e : (sig R).Eff} (ht : Talks om e) (m : SiModule) (o : SiClient.Op) : e ≠ .app (.host m o) := by
  rintro rfl
  rcases ht with e | ⟨p, e⟩ | ⟨s, e, _⟩ <;> cases e

theorem talks_proveDevice {kx : KeyExchange R.K} {n6 n7 : Bytes} :
    Prog.Only (Talks .to2ProveDevice) (proveDevice c A cr cl kx n6 n7 ks : Step R _) :=
  Proc.only_bind (only_signToken (.inr (.inl ⟨_, rfl⟩))) fun _ => Proc.only_bind talks_say fun ⟨_, _⟩ => Proc.only_pure

theorem talks_ready : Prog.Only (Talks .to2DeviceServiceInfoReady) (ready A cl : Step R _) :=
  Proc.only_bind talks_say fun ⟨_, _⟩ => Proc.only_pure

theorem complete_mem {x y : Trace (sig R)} (hc : Complete A ks x) (hs : ∀ d ∈ x, d ∈ y) : Complete A ks y := by
  obtain ⟨tok, body, r, pl, m, h, hh⟩ := hc
  exact ⟨tok, body, r, pl, m, hs _ h, hh⟩

theorem reaches_rest {kx : KeyExchange R.K} {n6 n7 : Bytes} {d : (sig R).Deed} {v : Trace (sig R)} (hd : Weighty d.1)
    (hr : Proc.Reaches (do
        let cl ← proveDevice c A cr cl' kx n6 n7 ks
        let cl ← ready A cl
        let (cl, b) ← serviceInfos A h cl
        settle w l cl
        done A cl n6 n7
        pure b : Step R Bool) v d) : Way A w h l ks v d := by
  rcases Proc.reaches_bind hr with hr1 | ⟨cl1, t1, t2, rfl, h1, hr1⟩
  · exact .inl (talks_weighty hd (talks_proveDevice _ hr1.choose_spec d (by simp)))
  have k1 := proveDevice_keys h1
  have n1 : ∀ x ∈ t1, ∀ m o, x.1 ≠ .app (.host m o) := fun x hx => noHost (talks_proveDevice _ ⟨_, h1⟩ x hx)
  rcases Proc.reaches_bind hr1 with hr2 | ⟨cl2, t3, t4, rfl, h2, hr2⟩
  · rcases Proc.reaches_bind hr2 with hr3 | ⟨⟨_, _⟩, u1, u2, rfl, _, hr3⟩
    · exact .inr (.inl (sealed_say k1 hd hr3))
    · exact absurd (Proc.does_pure hr3.choose_spec) (by simp)
  have k2 := (ready_keys h2).trans k1
  have n2 : ∀ x ∈ t3, ∀ m o, x.1 ≠ .app (.host m o) := fun x hx => noHost (talks_ready _ ⟨_, h2⟩ x hx)
  rcases Proc.reaches_bind hr2 with hr3 | ⟨⟨cl3, b⟩, t5, t6, rfl, h3, hr3⟩
  · rcases reaches_serviceInfos k2 hd hr3 with hs | ⟨m, op, a, ts, rfl, h4, h5⟩
    · exact .inr (.inl hs)
    · refine .inr (.inr (.inl ⟨m, op, a, t1 ++ t3, ts, t4, rfl, by simp, fun x hx => ?_, h4, h5⟩))
      rcases List.mem_append.1 hx with hx | hx
      · exact n1 x hx
      · exact n2 x hx
  obtain ⟨k3, ts, hc, hp⟩ := serviceInfos_ends k2 h3
  have hcm := complete_of hc hp
  rcases Proc.reaches_bind hr3 with hr4 | ⟨_, t7, t8, rfl, h4, hr4⟩
  · obtain ⟨o, ho, hm⟩ := marks_settle (R := R) (P := fun e => ∃ o, e = .app (.fs o) ∧ Marks w l o) (fun o ho => ⟨o, rfl, ho⟩) _
      hr4.choose_spec d (by simp)
    exact .inr (.inr (.inr ⟨o, ho, hm, complete_mem hcm fun x hx => by simp [hx]⟩))
  rcases Proc.reaches_bind hr4 with hr5 | ⟨_, t9, t10, rfl, h5, hr5⟩
  · rcases Proc.reaches_bind hr5 with hr6 | ⟨⟨_, _⟩, u1, u2, rfl, _, hr6⟩
    · exact .inr (.inl (sealed_say k3 hd hr6))
    · exact absurd (Proc.does_check hr6.choose_spec) (by simp)
  · exact absurd (Proc.does_pure hr5.choose_spec) (by simp)

theorem Vetted.mono {n5 : Bytes} {reply : Http.NetReply} {x : Trace (sig R)} {p : OwnerServer.ProveHdr}
    (hv : Vetted c cr to1d n5 reply x p) (y : Trace (sig R)) : Vetted c cr to1d n5 reply (x ++ y) p := by
  obtain ⟨s, h, key, es, ps, a1, a2, a3, a4, a5, a6, a7, a8, a9, a10, a11⟩ := hv
  refine ⟨s, h, key, es, ps, a1, a2, a3, a4, a5, a6, a7, a8, a9, fun i e hi => ?_, a11⟩
  obtain ⟨tok, b, r, h, h'⟩ := a10 i e hi
  exact ⟨tok, b, r, List.mem_append_left _ h, h'⟩

theorem SessionKey.mono {x : Trace (sig R)} {kexA : Bytes} (hs : SessionKey x kexA ks) (y : Trace (sig R)) :
    SessionKey (x ++ y) kexA ks := by
  obtain ⟨k, f, key, g1, g2⟩ := hs
  exact ⟨k, f, key, List.mem_append_left _ g1, g2⟩

theorem reaches_ways (C : CodecLaws R.E) (S : Sized R) {n : Nat} {t : Trace (sig R)} {d : (sig R).Deed}
    (hr : Proc.Reaches (main (R := R) c A w h n) t d) (hd : Weighty d.1) :
    ∃ l cr to1d n5 iv reply x y p ks, Attempt c w l cr to1d t (hello cr n5 iv reply ++ (x ++ y)) ∧
      Vetted c cr to1d n5 reply x p ∧ SessionKey x p.kexA ks ∧ (∀ d ∈ x, ¬ Weighty d.1) ∧ Way A w h l ks y d := by
  obtain ⟨l, cr, s, mid, ha, hr⟩ := reaches_main hd hr
  obtain ⟨cl', kx, ks, n6, n7, u, v, rfl, h1, h2⟩ := reaches_to2 hd hr
  have hl := light_authenticate u ⟨_, h1⟩
  obtain ⟨-, n5, iv, reply, rest, p, rfl, hv, hs⟩ := authenticate_ok C S h1
  refine ⟨l, cr, s, n5, iv, reply, rest ++ [⟨.app .nonce, (some n7 : Option Bytes)⟩], v, p, ks, by simpa using ha,
    hv.mono _, hs.mono _, ?_, reaches_rest hd h2⟩
  intro d hd
  rcases List.mem_append.1 hd with hd | hd
  · exact hl d (List.mem_append_right _ hd)
  · rw [List.mem_singleton.1 hd]
    exact id

/-- **C46**, service info: what the device does on its host is what service info alone would do with the messages that decrypt
under the session's key, and that key is agreed on with the vetted owner: with the key exchange value that is part of what the
owner has signed. -/
theorem C46_service_info (C : CodecLaws R.E) (S : Sized R) (n : Nat) (t : Trace (sig R)) (m : SiModule) (op : SiClient.Op) (a : op.Ans)
    (hr : Proc.Reaches (main (R := R) c A w h n) t ⟨.app (.host m op), a⟩) :
    ∃ l cr to1d n5 iv reply x si p ks ts, Attempt c w l cr to1d t (hello cr n5 iv reply ++ (x ++ si)) ∧
      Vetted c cr to1d n5 reply x p ∧ SessionKey x p.kexA ks ∧ (∀ d ∈ x, ∀ m o, d.1 ≠ .app (.host m o)) ∧ Conveyed A ks ts si ∧
      Proc.Reaches (SiClient.perform h R.encVal R.decVal) ts ⟨.host m op, a⟩ := by
  obtain ⟨l, cr, to1d, n5, iv, reply, x, y, p, ks, ha, hv, hs, hx, hw⟩ := reaches_ways C S hr trivial
  rcases hw with ⟨s, e, _⟩ | ⟨s, e, _⟩ | ⟨m', op', a', x', ts, si, e, rfl, h1, h2, h3⟩ | ⟨o, e, _⟩
  · cases e
  · cases e
  · cases e
    refine ⟨l, cr, to1d, n5, iv, reply, x ++ x', si, p, ks, ts, by simpa using ha, hv.mono _, hs.mono _, fun d hd m o e => ?_, h2, h3⟩
    rcases List.mem_append.1 hd with hd | hd
    · exact hx d hd (by rw [e]; exact trivial)
    · exact h1 d hd m o e
  · cases e

/-- **C46**, secrecy: after the owner was vetted, everything but the device's proof is sent under the session's key. -/
theorem C46_sealed (C : CodecLaws R.E) (S : Sized R) (n : Nat) (t : Trace (sig R)) (s : Http.Sent) (r : Option Http.NetReply)
    (hr : Proc.Reaches (main (R := R) c A w h n) t ⟨.net s, r⟩)
    (ht : s.type = .to2DeviceServiceInfoReady ∨ s.type = .to2DeviceServiceInfo ∨ s.type = .to2Done) :
    ∃ l cr to1d n5 iv reply x p ks, Attempt c w l cr to1d t (hello cr n5 iv reply ++ x) ∧
      Vetted c cr to1d n5 reply x p ∧ SessionKey x p.kexA ks ∧ Sealed A ks s := by
  obtain ⟨l, cr, to1d, n5, iv, reply, x, y, p, ks, ha, hv, hs, hx, hw⟩ := reaches_ways C S hr (.inr ht)
  rcases hw with ⟨s', e, he⟩ | ⟨s', e, he⟩ | ⟨m', op', a', x', ts, si, e, _⟩ | ⟨o, e, _⟩
  · cases e
    rw [he] at ht
    rcases ht with ht | ht | ht <;> cases ht
  · cases e
    exact ⟨l, cr, to1d, n5, iv, reply, x ++ y, p, ks, ha, hv.mono _, hs.mono _, he⟩
  · cases e
  · cases e

/-- **C48**, what holds: the client changes files only in order to mark the device as onboarded and to deactivate its
credential, and only after the vetted owner's server has said, under the session's key, that service info is complete. -/
theorem C48_complete_partial (C : CodecLaws R.E) (S : Sized R) (n : Nat) (t : Trace (sig R)) (o : Fs.Op) (a : o.Ans)
    (hr : Proc.Reaches (main (R := R) c A w h n) t ⟨.app (.fs o), a⟩) (ho : ∀ p, o ≠ .read p) :
    ∃ l cr to1d n5 iv reply x p ks, Attempt c w l cr to1d t (hello cr n5 iv reply ++ x) ∧
      Vetted c cr to1d n5 reply x p ∧ SessionKey x p.kexA ks ∧ Marks w l o ∧ Complete A ks x := by
  have hd : Weighty (R := R) (.app (.fs o)) := by
    cases o with
    | read p => exact absurd rfl (ho p)
    | _ => trivial
  obtain ⟨l, cr, to1d, n5, iv, reply, x, y, p, ks, ha, hv, hs, hx, hw⟩ := reaches_ways C S hr hd
  rcases hw with ⟨s, e, _⟩ | ⟨s, e, _⟩ | ⟨m', op', a', x', ts, si, e, _⟩ | ⟨o', e, h1, h2⟩
  · cases e
  · cases e
  · cases e
  · cases e
    exact ⟨l, cr, to1d, n5, iv, reply, x ++ y, p, ks, ha, hv.mono _, hs.mono _, h1, complete_mem h2 fun d hd => by simp [hd]⟩

end Verif.Device
