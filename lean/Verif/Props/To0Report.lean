import Verif.Props.To0
import Verif.Props.Rendezvous
/-!
C89: what an owner sends to rendezvous servers when it reports a voucher, whatever they answer.
-/
namespace Verif.To0
open Verif Verif.Voucher Verif.OwnerServer

/-! ### Specification -/

/-- The owner trusts the device of a voucher: the voucher has a certificate chain, in which from the first certificate on each one is
issued and signed by the next, up to one the owner was given as trusted (any, if it was given none). A certificate is only its own
root if it is alone. -/
def Trusts (R : OwnerEnv) (keys : Option (List R.C.Cert)) (v : Voucher R.E) : Prop :=
  ∃ ch seg root rest, v.chain = some ch ∧ R.certs ch = seg ++ root :: rest ∧
    List.IsChain (fun a b => Rendezvous.Signs R.C b a) (seg ++ [root]) ∧ (2 ≤ (R.certs ch).length → seg ≠ []) ∧
    ∀ bag, keys = some bag → ∃ x ∈ bag, R.certDigest root = R.certDigest x

/-- The body of OwnerSign for a voucher and the nonce of a HelloAck: the array of the registration data as a byte string and of the
redirect. The registration data is the array of the voucher, the lifetime asked for and the nonce. The redirect is a COSE_Sign1 by
the owner's key over the owner's addresses and the SHA-384 of the registration data. -/
def Registers (R : OwnerEnv) (cfg : Config R) (v : Voucher R.E) (n body : Bytes) : Prop :=
  ∃ raw to0d to1d prot sig, Voucher.serialize v = .ok raw ∧
    to0d = 0x83 :: (raw ++ R.encU32 cfg.period ++ R.encNonce n) ∧
    R.E.sign cfg.ownerKey (R.encTo1 ⟨.sha384, R.E.digest .sha384 to0d⟩) = some (prot, sig) ∧
    to1d = 0xd2 :: 0x84 :: (R.E.encBytes prot ++ 0xa0 :: (R.E.encBytes (R.encTo1 ⟨.sha384, R.E.digest .sha384 to0d⟩) ++ R.E.encBytes sig)) ∧
    body = 0x82 :: (R.E.encBytes to0d ++ to1d)

/-- A client for a URL was made, and Hello sent with it. -/
def helloTo (N : Msgs) (u : String) (iv : Bytes) (o : Option Http.NetReply) : Trace sig :=
  [⟨.app (.connect u), ()⟩, ⟨.iv, iv⟩, ⟨.net ⟨.to0Hello, none, N.hello⟩, o⟩]

/-- A request `s` that may be sent after `t1` and before `t2`: a Hello without token as the first message to a URL, or, as the last
request of all, OwnerSign right after a HelloAck, with its token and nonce, to the same URL. -/
def MaySend (R : OwnerEnv) (cfg : Config R) (N : Msgs) (v : Voucher R.E) (t1 : Trace sig) (s : Http.Sent) (t2 : Trace sig) : Prop :=
  (∃ t0 u iv, t1 = t0 ++ [⟨.app (.connect u), ()⟩, ⟨.iv, iv⟩] ∧ s = ⟨.to0Hello, none, N.hello⟩) ∨
  (∃ t0 u iv q iv' n, t1 = t0 ++ (helloTo N u iv (some q) ++ [⟨.iv, iv'⟩]) ∧ q.success = true ∧
    q.type = .code MsgType.to0HelloAck.code ∧ N.decAck q.body = some n ∧
    s.type = .to0OwnerSign ∧ s.auth = q.auth.join ∧ Registers R cfg v n s.body ∧ t2 = [])

/-- The URLs for which clients were made, in order. -/
def connects : Trace sig → List String
  | [] => []
  | ⟨.app (.connect u), _⟩ :: t => u :: connects t
  | _ :: t => connects t

/-! ### Proofs -/

theorem connects_append (a b : Trace sig) : connects (a ++ b) = connects a ++ connects b := by
  induction a with
  | nil => rfl
  | cons d a ih =>
    obtain ⟨e, x⟩ := d
    match e with
    | .app (.connect u) => exact congrArg (u :: ·) ih
    | .net s => exact ih
    | .iv => exact ih

theorem registers_of {R : OwnerEnv} {cfg : Config R} {v : Voucher R.E} {n b : Bytes} {x : Bytes × Bytes}
    (h1 : buildOwnerSign R cfg v n = .ok x) (h2 : ownerSignMsg R x.1 x.2 = .ok b) : Registers R cfg v n b := by
  obtain ⟨to0d, e1, h1⟩ := Res.bind_eq_ok.1 h1
  obtain ⟨h, e2, h1⟩ := Res.bind_eq_ok.1 h1
  obtain ⟨to1d, e3, h1⟩ := Res.bind_eq_ok.1 h1
  cases h1
  obtain ⟨raw, e4, e5⟩ := Res.bind_eq_ok.1 e1
  have e5 : Res.ok (0x83 :: [raw, R.encU32 cfg.period, R.encNonce n].flatten) = Res.ok to0d := e5
  have e5 := Res.ok.inj e5
  obtain ⟨⟨prot, sig⟩, e6, e7⟩ := Res.bind_eq_ok.1 e3
  have e7 : Res.ok (0xd2 :: 0x84 :: [R.E.encBytes prot, emptyMap, R.E.encBytes (R.encTo1 h), R.E.encBytes sig].flatten) = Res.ok to1d := e7
  have e7 := Res.ok.inj e7
  have h2 : Res.ok (0x82 :: [R.E.encBytes to0d, to1d].flatten) = Res.ok b := h2
  have h2 := Res.ok.inj h2
  have e2 : Res.ok (⟨.sha384, R.E.digest .sha384 to0d⟩ : Hash) = Res.ok h := e2
  have e2 := Res.ok.inj e2
  subst e2
  have e6 : R.E.sign cfg.ownerKey (R.encTo1 ⟨.sha384, R.E.digest .sha384 to0d⟩) = some (prot, sig) := by
    revert e6
    cases R.E.sign cfg.ownerKey (R.encTo1 ⟨.sha384, R.E.digest .sha384 to0d⟩) with
    | none => intro h; cases h
    | some y => intro h; exact congrArg some (Res.ok.inj h)
  refine ⟨raw, to0d, to1d, prot, sig, e4, ?_, e6, ?_, ?_⟩
  · rw [← e5]; simp
  · rw [← e7]; simp [emptyMap]
  · rw [← h2]; simp

theorem trusts_of {R : OwnerEnv} {cfg : Config R} {v : Voucher R.E} (h : checkVoucher R cfg v = .ok ()) :
    v.header.version = 101 ∧ Trusts R cfg.deviceKeys v := by
  unfold checkVoucher at h
  split at h
  · cases h
  rename_i hv
  refine ⟨by simpa using hv, ?_⟩
  split at h
  · cases h
  rename_i ch hc
  split at h
  · rename_i leaf hl
    unfold RvServer.verifyDevice at hl
    simp only at hl
    split at hl
    · rename_i bag hk
      obtain ⟨seg, root, rest, h1, -, h3, h4, h5⟩ := Rendezvous.C19_bag _ _ _ _ hl
      refine ⟨ch, seg, root, rest, hc, h1, h4, h5, ?_⟩
      intro bag' hb
      rw [hk] at hb
      cases hb
      exact h3
    · rename_i hk
      obtain ⟨seg, root, rest, h1, -, -, h4, h5⟩ := Rendezvous.C19_path_to_root _ _ _ hl
      refine ⟨ch, seg, root, rest, hc, h1, h4, h5, ?_⟩
      intro bag' hb
      rw [hk] at hb
      cases hb
  · cases h
  · cases h

section
variable {R : OwnerEnv} {cfg : Config R} {N : Msgs} {A : Http.Aead} {v : Voucher R.E} {t : Trace sig}

theorem MaySend.after {t0 t1 t2 : Trace sig} {s : Http.Sent} (h : MaySend R cfg N v t1 s t2) : MaySend R cfg N v (t0 ++ t1) s t2 := by
  rcases h with ⟨a, u, iv, rfl, h⟩ | ⟨a, u, iv, q, iv', n, rfl, h⟩
  · exact .inl ⟨t0 ++ a, u, iv, by simp, h⟩
  · exact .inr ⟨t0 ++ a, u, iv, q, iv', n, by simp, h⟩

theorem does_ownerSign {cl : Http.Client} {n : Bytes} (hk : cl.keys = none) (h : Prog.Does (ownerSign R cfg N A v cl n) t) :
    t = [] ∨ (∃ iv, t = [⟨.iv, iv⟩]) ∨
      ∃ iv b o, t = [⟨.iv, iv⟩, ⟨.net ⟨.to0OwnerSign, cl.token, b⟩, o⟩] ∧ Registers R cfg v n b := by
  unfold ownerSign at h
  rcases Proc.does_lift_bind h with h | ⟨x, hx, h⟩
  · exact .inl h
  rcases Proc.does_lift_bind h with h | ⟨b, hb, h⟩
  · exact .inl h
  have h : Prog.Does (Http.sendQ (X := ops) A N.decAccept cl .to0OwnerSign .to0AcceptOwner b none) t := by
    rcases Proc.does_bind h with h | ⟨y, t1, t2, rfl, h1, h2⟩
    · exact Proc.does_mapErr h
    · have := (Prog.steps_ret h2.choose_spec).1
      subst this
      rw [List.append_nil]
      exact ⟨_, Proc.ends_mapErr h1⟩
  rcases Http.does_sendQ h with h | h | ⟨iv, body, o, h, -, h'⟩
  · exact .inl h
  · exact .inr (.inl h)
  · rw [hk] at h'
    have h' := Option.some.inj h'
    subst h'
    exact .inr (.inr ⟨iv, b, o, h, registers_of (liftD_ok hx) (liftD_ok hb)⟩)

theorem ends_ownerSign {cl : Http.Client} {n : Bytes} {w : Nat} (hk : cl.keys = none) (h : Prog.Ends (ownerSign R cfg N A v cl n) t (.ok w)) :
    ∃ iv b q, t = [⟨.iv, iv⟩, ⟨.net ⟨.to0OwnerSign, cl.token, b⟩, some q⟩] ∧ q.success = true ∧
      q.type = .code MsgType.to0AcceptOwner.code ∧ N.decAccept q.body = some w := by
  unfold ownerSign at h
  obtain ⟨x, hx, h⟩ := Proc.ends_lift_bind h
  obtain ⟨b, hb, h⟩ := Proc.ends_lift_bind h
  obtain ⟨y, t1, t2, rfl, h1, h2⟩ := Proc.ends_bind h
  obtain ⟨rfl, rfl⟩ := Proc.ends_pure h2
  obtain ⟨iv, body, q, rfl, he⟩ := Http.ends_sendQ (Proc.ends_mapErr h1)
  obtain ⟨p, hp, hd⟩ := he.reads
  rw [show y.1.keys = none from he.keys.trans hk] at hp
  have hp := Option.some.inj hp
  subst hp
  exact ⟨iv, body, q, by simp, he.success, he.type, hd⟩

/-- The result of Hello to one URL. -/
theorem ends_hello {x : Http.Client × Bytes}
    (h : Prog.Ends (Http.sendQ (X := ops) A N.decAck .new .to0Hello .to0HelloAck N.hello none) t (.ok x)) :
    ∃ iv q, t = [⟨.iv, iv⟩, ⟨.net ⟨.to0Hello, none, N.hello⟩, some q⟩] ∧ q.success = true ∧
      q.type = .code MsgType.to0HelloAck.code ∧ N.decAck q.body = some x.2 ∧ x.1.keys = none ∧ x.1.token = q.auth.join := by
  obtain ⟨iv, body, q, rfl, he⟩ := Http.ends_sendQ h
  have hk : x.1.keys = none := he.keys
  have hs := Option.some.inj (show some N.hello = some body from he.sent)
  subst hs
  obtain ⟨p, hp, hd⟩ := he.reads
  rw [hk] at hp
  have hp := Option.some.inj hp
  subst hp
  exact ⟨iv, q, rfl, he.success, he.type, hd, hk, he.token.trans (by cases q.auth.join <;> rfl)⟩

theorem does_hello (h : Prog.Does (Http.sendQ (X := ops) A N.decAck .new .to0Hello .to0HelloAck N.hello none) t) :
    t = [] ∨ (∃ iv, t = [⟨.iv, iv⟩]) ∨ ∃ iv o, t = [⟨.iv, iv⟩, ⟨.net ⟨.to0Hello, none, N.hello⟩, o⟩] := by
  rcases Http.does_sendQ h with h | h | ⟨iv, body, o, h, -, h'⟩
  · exact .inl h
  · exact .inr (.inl h)
  · have h' := Option.some.inj (show some N.hello = some body from h')
    subst h'
    exact .inr (.inr ⟨iv, o, h⟩)

/-- One URL: making a client and Hello, as far as they got; or a Hello which failed, and the next URL; or OwnerSign. -/
theorem does_try {u : String} {us : List String} (h : Prog.Does (tryUrls R cfg N A v (u :: us)) t) :
    t = [] ∨ ∃ t1 t2, t = ⟨.app (.connect u), ()⟩ :: (t1 ++ t2) ∧
      (t1 = [] ∨ (∃ iv, t1 = [⟨.iv, iv⟩]) ∨ ∃ iv o, t1 = [⟨.iv, iv⟩, ⟨.net ⟨.to0Hello, none, N.hello⟩, o⟩]) ∧
      (Prog.Does (tryUrls R cfg N A v us) t2 ∨
        ∃ iv q n, t1 = [⟨.iv, iv⟩, ⟨.net ⟨.to0Hello, none, N.hello⟩, some q⟩] ∧ q.success = true ∧
          q.type = .code MsgType.to0HelloAck.code ∧ N.decAck q.body = some n ∧
          (t2 = [] ∨ (∃ iv, t2 = [⟨.iv, iv⟩]) ∨
            ∃ iv b o, t2 = [⟨.iv, iv⟩, ⟨.net ⟨.to0OwnerSign, q.auth.join, b⟩, o⟩] ∧ Registers R cfg v n b)) := by
  rw [tryUrls] at h
  rcases Proc.does_ask_bind h with h0 | ⟨x, t', rfl, h'⟩
  · exact .inl h0
  refine .inr ?_
  clear h
  rcases Proc.does_bind h' with h | ⟨a, t1, t2, rfl, h1, h2⟩
  · exact ⟨t', [], congrArg (_ :: ·) (List.append_nil t').symm, does_hello (Proc.does_mapErr (Proc.does_attempt h)), .inl ⟨_, .nil _⟩⟩
  refine ⟨t1, t2, rfl, does_hello (Proc.does_mapErr (Proc.does_attempt ⟨_, h1⟩)), ?_⟩
  cases a with
  | none => exact .inl h2
  | some x =>
    obtain ⟨iv, q, e, e1, e2, e3, e4, e5⟩ := ends_hello (Proc.ends_mapErr (Proc.ends_attempt h1))
    refine .inr ⟨iv, q, x.2, e, e1, e2, e3, ?_⟩
    rw [← e5]
    exact does_ownerSign e4 h2

theorem split_append {α : Type} {a b c d : List α} {x : α} (h : a ++ b = c ++ x :: d) :
    (∃ e, a = c ++ x :: e ∧ d = e ++ b) ∨ ∃ e, c = a ++ e ∧ b = e ++ x :: d := by
  rcases List.append_eq_append_iff.1 h with ⟨e, h1, h2⟩ | ⟨e, h1, h2⟩
  · exact .inr ⟨e, h1, h2⟩
  · cases e with
    | nil => exact .inr ⟨[], by simpa using h1.symm, by simpa using h2.symm⟩
    | cons y e =>
      obtain ⟨rfl, h3⟩ := List.cons.inj h2
      exact .inl ⟨e, h1, h3⟩

theorem does_tryUrls {us : List String} (h : Prog.Does (tryUrls R cfg N A v us) t) :
    connects t <+: us ∧ ∀ t1 s o t2, t = t1 ++ ⟨.net s, o⟩ :: t2 → MaySend R cfg N v t1 s t2 := by
  induction us generalizing t with
  | nil =>
    have := (Prog.steps_ret h.choose_spec).1
    subst this
    exact ⟨List.prefix_rfl, fun t1 s o t2 h => by simp at h⟩
  | cons u us ih =>
    rcases does_try h with rfl | ⟨a, b, rfl, ha, hb⟩
    · exact ⟨List.nil_prefix, fun t1 s o t2 h => by simp at h⟩
    have hca : connects a = [] := by
      rcases ha with rfl | ⟨iv, rfl⟩ | ⟨iv, o, rfl⟩ <;> rfl
    have hfirst : ∀ t1 s o e, ⟨.app (.connect u), ()⟩ :: a = t1 ++ ⟨.net s, o⟩ :: e → ∀ t2, MaySend R cfg N v t1 s t2 := by
      intro t1 s o e he t2
      match t1, he with
      | [], he => exact nomatch (List.cons.inj he).1
      | d :: t1, he =>
        obtain ⟨hd, he'⟩ := List.cons.inj he
        clear he
        subst hd
        rcases ha with rfl | ⟨iv, rfl⟩ | ⟨iv, o, rfl⟩
        · simp at he'
        · match t1, he' with
          | [], he => exact nomatch (List.cons.inj he).1
          | _ :: t1, he => simp at he
        · match t1, he' with
          | [], he => exact nomatch (List.cons.inj he).1
          | [d], he =>
            obtain ⟨hd', he''⟩ := List.cons.inj he
            clear he
            subst hd'
            have he := (List.cons.inj he'').1
            cases he
            exact .inl ⟨[], u, iv, rfl, rfl⟩
          | _ :: _ :: t1, he => simp at he
    refine ⟨?_, ?_⟩
    · show u :: connects (a ++ b) <+: u :: us
      rw [connects_append, hca, List.nil_append, List.prefix_cons_inj]
      rcases hb with hb | ⟨iv, q, n, -, -, -, -, rfl | ⟨iv', rfl⟩ | ⟨iv', b', o', rfl, -⟩⟩
      · exact (ih hb).1
      · exact List.nil_prefix
      · exact List.nil_prefix
      · exact List.nil_prefix
    · intro t1 s o t2 he
      rw [← List.cons_append] at he
      rcases split_append he with ⟨e, h1, -⟩ | ⟨e, rfl, h2⟩
      · exact hfirst _ _ _ _ h1 _
      · rcases hb with hb | ⟨iv, q, n, rfl, g1, g2, g3, rfl | ⟨iv', rfl⟩ | ⟨iv', b', o', rfl, g4⟩⟩
        · exact ((ih hb).2 _ _ _ _ h2).after
        · simp at h2
        · match e, h2 with
          | [], h2 => exact nomatch (List.cons.inj h2).1
          | _ :: e, h2 => simp at h2
        · match e, h2 with
          | [], h2 => exact nomatch (List.cons.inj h2).1
          | [d], h2 =>
            obtain ⟨hd, h4⟩ := List.cons.inj h2
            clear h2
            subst hd
            obtain ⟨h5, h3⟩ := List.cons.inj h4
            cases h5
            exact .inr ⟨[], u, iv, q, iv', n, rfl, g1, g2, g3, rfl, rfl, g4, h3.symm⟩
          | _ :: _ :: e, h2 => simp at h2

theorem ends_tryUrls {us : List String} {w : Nat} (h : Prog.Ends (tryUrls R cfg N A v us) t (.ok w)) :
    ∃ t0 s q, t = t0 ++ [⟨.net s, some q⟩] ∧ s.type = .to0OwnerSign ∧ q.success = true ∧
      q.type = .code MsgType.to0AcceptOwner.code ∧ N.decAccept q.body = some w := by
  induction us generalizing t with
  | nil => cases (Prog.ends_ret h).2
  | cons u us ih =>
    rw [tryUrls] at h
    obtain ⟨x, t1, t2, rfl, -, h⟩ := Proc.ends_bind h
    obtain ⟨a, u1, u2, rfl, h1, h2⟩ := Proc.ends_bind h
    cases a with
    | none =>
      obtain ⟨t0, s, q, rfl, g⟩ := ih h2
      exact ⟨t1 ++ (u1 ++ t0), s, q, by simp, g⟩
    | some x =>
      obtain ⟨iv, q, e, e1, e2, e3, e4, e5⟩ := ends_hello (Proc.ends_mapErr (Proc.ends_attempt h1))
      obtain ⟨iv', b, q', rfl, g⟩ := ends_ownerSign e4 h2
      exact ⟨t1 ++ (u1 ++ [⟨.iv, iv'⟩]), ⟨.to0OwnerSign, x.1.token, b⟩, q', by simp, rfl, g⟩

theorem does_report (h : Prog.Does (report R cfg N A v) t) : t = [] ∨
    ∃ us, checkVoucher R cfg v = .ok () ∧ reportUrls R v = .ok us ∧ Prog.Does (tryUrls R cfg N A v us) t := by
  unfold report at h
  rcases Proc.does_lift_bind h with h | ⟨x, hx, h⟩
  · exact .inl h
  rcases Proc.does_lift_bind h with h | ⟨us, hu, h⟩
  · exact .inl h
  · exact .inr ⟨us, hx, liftD_ok hu, h⟩

/-- **C89**: if the owner does anything at all when it reports a voucher (makes a client for some URL, sends something), then the
voucher is of the supported version and its device is trusted. -/
theorem C89_trusted (h : Prog.Does (report R cfg N A v) t) (hne : t ≠ []) :
    v.header.version = 101 ∧ Trusts R cfg.deviceKeys v := by
  rcases does_report h with h | ⟨us, h, -, -⟩
  · exact absurd h hne
  · exact trusts_of h

/-- **C89**: the URLs the owner turns to are, in order and each once, the first ones of those which the voucher's rendezvous
information has for the owner. -/
theorem C89_contacts (h : Prog.Does (report R cfg N A v) t) (hne : t ≠ []) :
    ∃ l, Rendezvous.toInterpreted R.D .owner (R.directives v.header.rv) = .ok l ∧
      connects t <+: l.flatMap (Rendezvous.getUrls R.showIp) := by
  rcases does_report h with h | ⟨us, -, hu, h⟩
  · exact absurd h hne
  obtain ⟨l, h1, h2⟩ := Res.bind_eq_ok.1 hu
  cases h2
  exact ⟨l, h1, (does_tryUrls h).1⟩

/-- **C89**: all the owner sends, whatever it is answered: Hello to a URL; and at most one OwnerSign, as the last request, in reply to
a HelloAck, to the same URL, which has the voucher as it is, the lifetime from the configuration, the nonce from that HelloAck, and a
redirect signed by the owner over the digest of just that. -/
theorem C89_sends (h : Prog.Does (report R cfg N A v) t) {t1 t2 : Trace sig} {s : Http.Sent} {o : Option Http.NetReply}
    (ht : t = t1 ++ ⟨.net s, o⟩ :: t2) : MaySend R cfg N v t1 s t2 := by
  rcases does_report h with rfl | ⟨us, -, -, h⟩
  · simp at ht
  · exact (does_tryUrls h).2 _ _ _ _ ht

/-- **C89**: the owner takes a voucher as reported for `w` seconds only if it sent OwnerSign, and `w` is what the AcceptOwner says
which answered it. -/
theorem C89_granted {w : Nat} (h : Prog.Ends (report R cfg N A v) t (.ok w)) :
    ∃ t0 s q, t = t0 ++ [⟨.net s, some q⟩] ∧ s.type = .to0OwnerSign ∧ q.success = true ∧
      q.type = .code MsgType.to0AcceptOwner.code ∧ N.decAccept q.body = some w := by
  unfold report at h
  obtain ⟨x, hx, h⟩ := Proc.ends_lift_bind h
  obtain ⟨us, hu, h⟩ := Proc.ends_lift_bind h
  exact ends_tryUrls h

/-- **C89**: a voucher whose device is not trusted is not reported, and nothing is sent. -/
theorem C89_untrusted (hn : ¬ Trusts R cfg.deviceKeys v) {r : Res To0Err Nat} (h : Prog.Ends (report R cfg N A v) t r) :
    t = [] ∧ ∀ w, r ≠ .ok w := by
  have ht : t = [] := Classical.byContradiction fun hne => hn (C89_trusted ⟨_, h⟩ hne).2
  refine ⟨ht, ?_⟩
  rintro w rfl
  obtain ⟨t0, s, q, e, -⟩ := C89_granted h
  rw [ht] at e
  simp at e

end

end Verif.To0
