import Verif.Lemmas.MfgRun
/-!
C71, C72: what the manufacturing client does to files, at every point at which it may be cut off.
-/
namespace Verif.MfgClient
open Verif Verif.Voucher Verif.Types Verif.MfgServer Verif.Fs
variable {R : ClientEnv}

/-- The HMAC of the voucher is sent. -/
def SendsHmac (t : Trace (sig R)) : Prop := ∃ q r, (⟨.net q, r⟩ : (sig R).Deed) ∈ t ∧ q.type = .diSetHmac

/-- What `t` has done to the files: nothing, and no HMAC was sent; or a part of an active credential was written to its file, and all
of it if the HMAC was sent. -/
def Tidy (w : Credential.Surroundings) (t : Trace (sig R)) (s s' : Files) : Prop :=
  (s' = s ∧ ¬ SendsHmac t) ∨ ∃ p cr b, credPath w = .ok p ∧ cr.active = true ∧ b <+: R.codec.enc cr ∧ s' = s.set p (some b) ∧
    (SendsHmac t → b = R.codec.enc cr)

/-- Neither writing to a file nor sending of the HMAC. -/
def Calm (e : (sig R).Eff) : Prop := (∀ s, e = .net s → s.type ≠ .diSetHmac) ∧ ∀ o, e = .app (.fs o) → ∃ p, o = .read p

theorem calm_quiet : Quiet (R := R) Calm := by
  refine ⟨⟨nofun, nofun⟩, fun e he => ⟨nofun, ?_⟩⟩
  intro o ho
  cases ho
  cases o <;> first | exact ⟨_, rfl⟩ | exact he.elim

theorem calm_net {t : MsgType} (h : t ≠ .diSetHmac) : ∀ s : Http.Sent, s.type = t → Calm (R := R) (.net s) := by
  intro s hs
  refine ⟨?_, nofun⟩
  intro s' he
  cases he
  rw [hs]
  exact h

/-- Reading and other effects leave files alone. -/
theorem reads_files {t : Trace (sig R)} (h : ∀ d ∈ t, ∀ o, d.1 = .app (.fs o) → ∃ p, o = .read p) {s s' : Files}
    (hr : Fs.Run s (fileDeeds t) s') : s' = s := by
  induction t generalizing s with
  | nil => cases hr; rfl
  | cons d t ih =>
    have ht := fun d hd => h d (List.mem_cons_of_mem _ hd)
    have hd := h d List.mem_cons_self
    unfold fileDeeds at hr
    cases hf : fileDeed d with
    | none =>
      rw [List.filterMap_cons_none hf] at hr
      exact ih ht hr
    | some x =>
      rw [List.filterMap_cons_some hf] at hr
      obtain ⟨e, a⟩ := d
      cases e with
      | iv => cases hf
      | net s => cases hf
      | app e =>
        cases e with
        | fs o =>
          cases hf
          obtain ⟨p, rfl⟩ := hd o rfl
          cases hr with
          | cons h1 h2 =>
            cases h1 with
            | read _ => exact ih ht h2
            | readFails => exact ih ht h2
        | _ => cases hf

/-- Wherever a program is cut off, files are tidy. -/
def Safe {α : Type} (w : Credential.Surroundings) (p : Proc (sig R) CliErr α) : Prop :=
  ∀ t s s', Prog.Does p t → Fs.Run s (fileDeeds t) s' → Tidy w t s s'

section
variable {w : Credential.Surroundings} {α β : Type}

theorem calm_tidy {t : Trace (sig R)} (h : ∀ d ∈ t, Calm d.1) {s s' : Files} (hr : Fs.Run s (fileDeeds t) s') : Tidy w t s s' :=
  .inl ⟨reads_files (fun d hd => (h d hd).2) hr, fun ⟨q, _, hm, hq⟩ => (h _ hm).1 q rfl hq⟩

theorem safe_calm {p : Proc (sig R) CliErr α} (h : Prog.Only Calm p) : Safe w p := fun t _ _ ht hr => calm_tidy (h t ht) hr

theorem safe_bind {p : Proc (sig R) CliErr α} {f : α → Proc (sig R) CliErr β} (hp : Prog.Only Calm p) (hf : ∀ a, Safe w (f a)) :
    Safe w (p >>= f : Proc (sig R) CliErr β) := by
  intro t s s' ht hr
  rcases Proc.does_bind ht with h | ⟨a, t1, t2, rfl, h1, h2⟩
  · exact safe_calm hp t s s' h hr
  · unfold fileDeeds at hr
    rw [List.filterMap_append] at hr
    obtain ⟨s1, r1, r2⟩ := Fs.run_append hr
    have hc := hp t1 ⟨_, h1⟩
    have e1 := reads_files (fun d hd => (hc d hd).2) r1
    subst e1
    have hs : SendsHmac (t1 ++ t2) → SendsHmac t2 := fun ⟨q, r, hm, hq⟩ =>
      (List.mem_append.mp hm).elim (fun hm => absurd hq ((hc _ hm).1 q rfl)) fun hm => ⟨q, r, hm, hq⟩
    rcases hf a t2 _ _ h2 r2 with ⟨g1, g2⟩ | ⟨p, cr, b, g1, g2, g3, g4, g5⟩
    · exact .inl ⟨g1, fun h => g2 (hs h)⟩
    · exact .inr ⟨p, cr, b, g1, g2, g3, g4, fun h => g5 (hs h)⟩

theorem set_set (s : Files) (p : Path) (a b : Option Bytes) : (s.set p a).set p b = s.set p b := by
  funext q
  simp only [Files.set]
  split <;> rfl

/-- Effects which do not change files. -/
def OnlyReads (e : (sig R).Eff) : Prop := ∀ o, e = .app (.fs o) → ∃ p, o = .read p

theorem save_sends {k : KeyRef R} {info : String} {g : Bytes} {rv : R.E.Rv} {kh : Hash} {t : Trace (sig R)}
    (h : Prog.Does (save w k info g rv kh) t) : ¬ SendsHmac t := by
  rintro ⟨q, r, hm, _⟩
  obtain ⟨o, ho⟩ := only_save (P := fun e => ∃ o, e = .app (.fs o)) (fun o => ⟨o, rfl⟩) w k info g rv kh t h _ hm
  cases ho

/-- Writing of the credential, and what follows. -/
theorem safe_save {k : KeyRef R} {info : String} {g : Bytes} {rv : R.E.Rv} {kh : Hash} {f : Unit → Proc (sig R) CliErr α}
    (hf : ∀ a, Prog.Only OnlyReads (f a)) :
    Safe w (save w k info g rv kh >>= f : Proc (sig R) CliErr α) := by
  intro t s s' ht hr
  have main : ∀ (t : Trace (sig R)) s s', Prog.Does (save w k info g rv kh) t → Fs.Run s (fileDeeds t) s' →
      s' = s ∨ ∃ p cr b, credPath w = .ok p ∧ cr.active = true ∧ b <+: R.codec.enc cr ∧ s' = s.set p (some b) := by
    intro t s s' h hr
    rcases Proc.does_some_bind h with rfl | ⟨ks, _, g1⟩
    · cases hr
      exact .inl rfl
    rcases Proc.does_lift_bind g1 with rfl | ⟨p, hp, g2⟩
    · cases hr
      exact .inl rfl
    rcases Proc.does_ask_bind g2 with rfl | ⟨ok, t1, rfl, g3⟩
    · cases hr
      exact .inl rfl
    rcases Proc.does_check_bind g3 with rfl | ⟨hok, g4⟩
    · have hr : Fs.Run s [⟨.create p, ok⟩] s' := hr
      cases hr with
      | cons h1 h2 =>
        cases h2
        cases h1 with
        | create => exact .inr ⟨p, ⟨true, 101, info.toList, g, R.E.encRv rv, kh, ks⟩, [], hp, rfl, List.nil_prefix, rfl⟩
        | createFails => exact .inl rfl
    have hok : ok = true := hok
    subst hok
    rcases Proc.does_ask_bind g4 with rfl | ⟨ok2, t2, rfl, g5⟩
    · have hr : Fs.Run s [⟨.create p, true⟩] s' := hr
      cases hr with
      | cons h1 h2 =>
        cases h2
        cases h1 with
        | create => exact .inr ⟨p, ⟨true, 101, info.toList, g, R.E.encRv rv, kh, ks⟩, [], hp, rfl, List.nil_prefix, rfl⟩
    have := Proc.does_check g5
    subst this
    have hr : Fs.Run s [⟨.create p, true⟩, ⟨.append p (R.codec.enc
        ⟨true, 101, info.toList, g, R.E.encRv rv, kh, ks⟩), ok2⟩] s' := hr
    cases hr with
    | cons h1 h2 =>
      cases h1 with
      | create =>
        cases h2 with
        | cons h3 h4 =>
          cases h4
          have hset : (s.set p (some [])) p = some [] := by simp [Files.set]
          cases h3 with
          | append hc =>
            rw [hset] at hc
            cases hc
            exact .inr ⟨p, _, _, hp, rfl, List.prefix_refl _, set_set _ _ _ _⟩
          | appendFails hc hb =>
            rw [hset] at hc
            cases hc
            exact .inr ⟨p, _, _, hp, rfl, hb, set_set _ _ _ _⟩
  rcases Proc.does_bind ht with h | ⟨a, t1, t2, rfl, h1, h2⟩
  · have g1 := save_sends h
    rcases main t s s' h hr with g2 | ⟨p, cr, b, g2, g3, g4, g5⟩
    · exact .inl ⟨g2, g1⟩
    · exact .inr ⟨p, cr, b, g2, g3, g4, g5, fun h => absurd h g1⟩
  · unfold fileDeeds at hr
    rw [List.filterMap_append] at hr
    obtain ⟨s1, r1, r2⟩ := Fs.run_append hr
    have e2 := reads_files (fun d hd => hf a t2 h2 d hd) r2
    subst e2
    obtain ⟨ks, p, hk, hp, rfl⟩ := ends_save h1
    have r1 : Fs.Run s [⟨.create p, true⟩, ⟨.append p (R.codec.enc
        ⟨true, 101, info.toList, g, R.E.encRv rv, kh, ks⟩), true⟩] s' := r1
    cases r1 with
    | cons h1 h2 =>
      cases h1 with
      | create =>
        cases h2 with
        | cons h3 h4 =>
          cases h4
          have hset : (s.set p (some [])) p = some [] := by simp [Files.set]
          cases h3 with
          | append hc =>
            rw [hset] at hc
            cases hc
            exact .inr ⟨p, _, _, hp, rfl, List.prefix_refl _, set_set _ _ _ _, fun _ => rfl⟩

variable (c : Bool) (A : Http.Aead)

theorem safe_di (cl : Http.Client) (k : KeyRef R) (ty : MfgString) (i : Option (List Char)) : Safe w (di c A w cl k ty i) :=
  safe_bind (only_mfgInfo calm_quiet _ _ _) fun _ =>
    safe_bind (Http.only_send calm_quiet.iv (calm_net (by decide))) fun _ => safe_bind Proc.only_lift fun _ =>
    safe_bind (only_hmacOf calm_quiet _ _) fun _ => safe_bind Proc.only_lift fun _ =>
    safe_save fun _ => Proc.only_bind (Http.only_send nofun fun _ _ => nofun) fun _ => Proc.only_pure

theorem safe_plainDi (ty : MfgString) (i x : Option (List Char)) : Safe w (plainDi (R := R) c A w ty i x) :=
  safe_bind (only_ifaceFor calm_quiet _ _) fun _ => safe_bind Proc.only_some? fun _ =>
    safe_bind (only_storedKey calm_quiet _ _) fun _ => safe_di c A _ _ _ _

theorem only_diun (how : Verification R) (cl : Http.Client) : Prog.Only Calm (diun c A how cl) :=
  Proc.only_bind (only_diunKeys calm_quiet c A (calm_net (by decide)) _ _) fun _ =>
    Proc.only_bind (Http.only_send calm_quiet.iv (calm_net (by decide))) fun _ =>
    Proc.only_bind (only_getNewKey calm_quiet _ _) fun _ => Proc.only_bind Proc.only_some? fun _ =>
    Proc.only_bind (Http.only_send calm_quiet.iv (calm_net (by decide))) fun _ => Proc.only_pure

theorem safe_diunDi (how : Verification R) (i : Option (List Char)) : Safe w (diunDi c A w how i) :=
  safe_bind (only_diun c A _ _) fun _ => safe_bind (only_ifaceFor calm_quiet _ _) fun _ => safe_di c A _ _ _ _

theorem safe_start (args : Args) : Safe w (start (R := R) c A w args) := by
  cases args with
  | plain => exact safe_plainDi c A _ _ _
  | noPlain => exact safe_bind (only_verification calm_quiet _ _ _) fun _ => safe_diunDi c A _ _
  | fromEnv =>
    refine safe_bind Proc.only_some? fun _ => ?_
    split
    · exact safe_bind Proc.only_some? fun _ => safe_plainDi c A _ _ _
    · exact safe_bind (only_verification calm_quiet _ _ _) fun _ => safe_diunDi c A _ _

/-- **C72**: wherever the client is cut off, it has changed no file but that of the credential, to which it has written an active
credential or a part of one; and if the HMAC was sent, so that the server may have made a voucher, then the whole credential
has been written before. -/
theorem C72_crash (args : Args) (t : Trace (sig R)) (h : Prog.Does (main c A w args) t) (s s' : Files)
    (hr : Fs.Run s (fileDeeds t) s') : Tidy w t s s' := by
  unfold main at h
  cases hf : Credential.find w with
  | none => rw [hf] at h; exact safe_start c A args t s s' h hr
  | some x =>
    rw [hf] at h
    cases x with
    | err e => have := Proc.does_fail h; subst this; exact calm_tidy (fun d hd => absurd hd List.not_mem_nil) hr
    | panic => have := Proc.does_lift h; subst this; exact calm_tidy (fun d hd => absurd hd List.not_mem_nil) hr
    | ok l =>
      refine (safe_bind (only_readP calm_quiet _) fun _ => safe_bind Proc.only_some? fun cr => ?_ : Safe w _) t s s' h hr
      split
      · exact safe_calm Proc.only_pure
      · exact safe_start c A args

/-- **C71**: a device with an active credential is left alone: nothing is sent and no file changed. -/
theorem C71_untouched (args : Args) (l : Credential.Location) (hl : Credential.find w = some (.ok l)) (s s' : Files) (b : Bytes)
    (cr : Credential.Cred) (hb : s l.path = some b) (hd : R.codec.dec b = some cr) (ha : cr.active = true) (t : Trace (sig R))
    (h : Prog.Does (main c A w args) t) (hr : Fs.Run s (fileDeeds t) s') :
    (∀ d ∈ t, ∀ q, d.1 ≠ .net q) ∧ s' = s := by
  unfold main at h
  rw [hl] at h
  rcases Proc.does_bind h with h | ⟨b', t1, t2, rfl, h1, h2⟩
  · have hi : Idles t := only_readP idle_quiet _ t h
    exact ⟨hi.silent, hi.files hr⟩
  · have hi := idles_of (only_readP idle_quiet _) h1
    obtain ⟨a, t3, rfl, g1⟩ := Proc.ends_ask_bind (S := sig R) h1
    obtain ⟨rfl, g2⟩ := Proc.ends_some? g1
    have g2 : a = some b' := g2
    subst g2
    have hbb : b' = b := by
      have hr : Fs.Run s (⟨.read l.path, (some b' : Option Bytes)⟩ :: fileDeeds t2) s' := hr
      cases hr with
      | cons h1 h2 =>
        cases h1 with
        | read hc => rw [hb] at hc; exact (Option.some.inj hc).symm
    subst hbb
    have : t2 = [] := by
      rcases Proc.does_some_bind h2 with h0 | ⟨cr', hcr, h3⟩
      · exact h0
      · rw [hd] at hcr
        cases hcr
        rw [if_pos ha] at h3
        exact Proc.does_pure h3
    subst this
    rw [List.append_nil] at hr ⊢
    exact ⟨hi.silent, hi.files hr⟩

end

end Verif.MfgClient
