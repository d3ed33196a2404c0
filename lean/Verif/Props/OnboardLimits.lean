import Verif.Lemmas.Retry
import Verif.Props.Onboard
import Verif.Props.SiCommands
/-!
C59, the other way round: what makes onboarding fail.
-/
namespace Verif.Device
open Verif Verif.Voucher Verif.Store Verif.Types Verif.ServiceInfo Verif.Cbor.Spec Verif.Fs

section
variable {R : DevEnv} {c : Bool} {A : Http.Aead}

/-- All messages of `t` were answered, and the status of the answer was success. -/
def Heard (t : Trace (sig R)) : Prop :=
  ∀ s (o : Option Http.NetReply), (⟨.net s, o⟩ : (sig R).Deed) ∈ t → ∃ q, o = some q ∧ q.success = true

/-- When the program succeeds, all its messages were answered with success. -/
def NeedsAll {ε α : Type} (p : Proc (sig R) ε α) : Prop := ∀ t a, Prog.Ends p t (.ok a) → Heard t

theorem heard_append {t1 t2 : Trace (sig R)} (h1 : Heard t1) (h2 : Heard t2) : Heard (t1 ++ t2) := by
  intro s o hm
  rcases List.mem_append.1 hm with hm | hm
  · exact h1 s o hm
  · exact h2 s o hm

theorem needs_bind {ε α β : Type} {p : Proc (sig R) ε α} {f : α → Proc (sig R) ε β} (hp : NeedsAll p) (hf : ∀ a, NeedsAll (f a)) :
    NeedsAll (p >>= f : Proc (sig R) ε β) := by
  intro t b he
  obtain ⟨a, t1, t2, rfl, h1, h2⟩ := Proc.ends_bind he
  exact heard_append (hp _ _ h1) (hf a _ _ h2)

theorem needs_quiet {ε α : Type} {p : Proc (sig R) ε α} (hp : Prog.Only (S := sig R) (fun e => ∀ s, e ≠ .net s) p) : NeedsAll p :=
  fun t _ he s _ hm => absurd rfl (hp t ⟨_, he⟩ _ hm s)

theorem needs_mapErr {ε ε' α : Type} {f : ε → ε'} {p : Proc (sig R) ε α} (hp : NeedsAll p) : NeedsAll (Proc.mapErr f p) := by
  intro t a he
  obtain ⟨x, t1, t2, rfl, h1, h2⟩ := Prog.ends_bind he
  match x, h1, h2 with
  | .ok a', h1, h2 =>
    obtain ⟨rfl, -⟩ := Prog.ends_ret h2
    rw [List.append_nil]
    exact hp _ _ h1
  | .err e, _, h2 => exact absurd (Prog.ends_ret h2).2 nofun
  | .panic, _, h2 => exact absurd (Prog.ends_ret h2).2 nofun

theorem needs_sendQ {α : Type} {dec : Bytes → Option α} {cl : Http.Client} {om sm : MsgType} {plain : Bytes}
    {nk : Option (Option Http.Keys)} : NeedsAll (Http.sendQ (X := ops R) A dec cl om sm plain nk) := by
  intro t a he s o hm
  obtain ⟨iv, body, r, rfl, hx⟩ := Http.ends_sendQ he
  rcases List.mem_cons.1 hm with h | hm
  · cases h
  · cases List.mem_singleton.1 hm
    exact ⟨r, rfl, hx.success⟩

theorem needs_say {α : Type} {dec : Bytes → Option α} {cl : Http.Client} {om sm : MsgType} {plain : Bytes}
    {nk : Option (Option Http.Keys)} : NeedsAll (say A dec cl om sm plain nk : Step R _) := needs_mapErr needs_sendQ

/-- If some message was not answered with success, then service info has seen an exchange fail. -/
theorem siRun_heard {α : Type} : ∀ (p : Prog SiClient.sig α) (cl cl' : Http.Client) (a : α) (t : Trace (sig R)),
    Prog.Ends (siRun A p cl : Step R _) t (.ok (cl', a)) →
    ∃ ts, Prog.Steps p ts (.ret a) ∧ (Heard t ∨ ∃ si, (⟨.exchange si, (none : Option OwnerSi)⟩ : SiClient.sig.Deed) ∈ ts) := by
  intro p
  induction p with
  | ret x =>
    intro cl cl' a t h
    obtain ⟨rfl, e⟩ := Prog.ends_ret h
    cases e
    exact ⟨[], .nil _, .inl nofun⟩
  | act e k ih =>
    intro cl cl' a t h
    cases e with
    | host m op =>
      obtain ⟨b, t', rfl, h1⟩ := Prog.ends_act h
      obtain ⟨ts, h2, h3⟩ := ih b cl cl' a t' h1
      refine ⟨⟨.host m op, b⟩ :: ts, .cons h2, ?_⟩
      rcases h3 with h3 | ⟨si, h3⟩
      · refine .inl fun s o hm => ?_
        rcases List.mem_cons.1 hm with hm | hm
        · cases hm
        · exact h3 s o hm
      · exact .inr ⟨si, List.mem_cons_of_mem _ h3⟩
    | exchange si =>
      unfold siRun at h
      obtain ⟨x, t1, t2, rfl, h1, h2⟩ := Prog.ends_bind h
      cases x with
      | panic => exact absurd (Prog.ends_ret h2).2 nofun
      | err x =>
        obtain ⟨ts, h3, h4⟩ := ih none x.1 cl' a t2 h2
        exact ⟨⟨.exchange si, (none : Option OwnerSi)⟩ :: ts, .cons h3, .inr ⟨si, List.mem_cons_self⟩⟩
      | ok x =>
        obtain ⟨ts, h3, h4⟩ := ih (some x.2) x.1 cl' a t2 h2
        refine ⟨⟨.exchange si, (some x.2 : Option OwnerSi)⟩ :: ts, .cons h3, ?_⟩
        rcases h4 with h4 | ⟨si', h4⟩
        · exact .inl (heard_append (needs_sendQ _ _ h1) h4)
        · exact .inr ⟨si', List.mem_cons_of_mem _ h4⟩

theorem needs_serviceInfos {h : SiClient.Host} {cl : Http.Client} : NeedsAll (serviceInfos A h cl : Step R _) := by
  intro t r he
  obtain ⟨x, t1, t2, rfl, h1, h2⟩ := Prog.ends_bind he
  match x, h1, h2 with
  | .ok (cl', .ok b), h1, h2 =>
    obtain ⟨rfl, -⟩ := Prog.ends_ret h2
    rw [List.append_nil]
    obtain ⟨ts, h3, h4⟩ := siRun_heard _ _ _ _ _ h1
    rcases h4 with h4 | h4
    · exact h4
    · obtain ⟨e, he⟩ := Life.si_perform _ _ h3 h4
      cases he
  | .ok (_, .err _), _, h2 => exact absurd (Prog.ends_ret h2).2 nofun
  | .ok (_, .panic), _, h2 => exact absurd (Prog.ends_ret h2).2 nofun
  | .err _, _, h2 => exact absurd (Prog.ends_ret h2).2 nofun
  | .panic, _, h2 => exact absurd (Prog.ends_ret h2).2 nofun

theorem needs_entries : ∀ (k : Nat) {cl : Http.Client} {i : Nat} {got : List Bytes}, NeedsAll (entriesFrom (R := R) c A cl i got k)
  | 0, _, _, _ => needs_quiet Proc.only_pure
  | k + 1, _, _, _ => needs_bind needs_say fun _ => needs_bind (needs_quiet Proc.only_check) fun _ => needs_entries k

/-- TO2 succeeds only if all its messages are answered with success. -/
theorem needs_to2 {w : Credential.Surroundings} {h : SiClient.Host} {l : Credential.Location} {cr : Credential.Cred} {cl : Http.Client} {to1d : Sign1} :
    NeedsAll (to2 c A w h l cr to1d cl : Step R _) :=
  needs_bind (needs_bind (needs_quiet (only_freshNonce nofun)) fun _ =>
    needs_bind (needs_bind needs_say fun _ => needs_quiet
      (Proc.only_bind only_given fun _ => Proc.only_bind Proc.only_some? fun _ => Proc.only_pure)) fun _ =>
    needs_bind (needs_bind (needs_entries _) fun _ => needs_quiet (Proc.only_bind only_given fun _ => Proc.only_pure)) fun _ =>
    needs_quiet (Proc.only_bind (Proc.only_bind Proc.only_some? fun _ => Proc.only_bind (Http.only_app (X := ops R) nofun) fun _ =>
      Proc.only_bind Proc.only_some? fun _ => Proc.only_bind only_given fun _ => Proc.only_pure) fun _ =>
      Proc.only_pure)) fun _ =>
  needs_bind (needs_quiet (only_freshNonce nofun)) fun _ =>
  needs_bind (needs_bind (needs_quiet (only_signToken nofun)) fun _ => needs_bind needs_say fun _ => needs_quiet Proc.only_pure) fun _ =>
  needs_bind (needs_bind needs_say fun _ => needs_quiet Proc.only_pure) fun _ =>
  needs_bind needs_serviceInfos fun _ =>
  needs_bind (needs_quiet (Proc.only_bind (Proc.only_mapErr (only_files (fun _ => nofun) _)) fun _ =>
    Proc.only_mapErr (only_files (fun _ => nofun) _))) fun _ =>
  needs_bind (needs_bind needs_say fun _ => needs_quiet Proc.only_check) fun _ => needs_quiet Proc.only_pure

/-- Whichever server answers with success, the message was no longer than 16 KiB. -/
theorem answered_small {Sv : Http.Server} {M : Type} {mv : M → Sv.W → Sv.W} {σ0 : Http.St Sv} {kdf : Http.Request Sv → Bool}
    {i : Option Sv.Id} {p hist : List (Http.Event Sv M)} {t : Trace (sig R)} (ht : Http.Talk (X := ops R) mv σ0 kdf i p hist t)
    (hh : Heard t) : Delivered R t := by
  intro s o hm
  obtain ⟨q, rfl, hq⟩ := hh s o hm
  refine ⟨⟨q, rfl⟩, ?_⟩
  obtain ⟨h1, rq, h2, -, hc, ha⟩ := Http.talk_served ht hm
  cases hs : (Http.step (Http.replay mv σ0 (p ++ h1)) rq).2 with
  | reject =>
    rw [hs] at ha
    exact absurd ((show q.success = false from ha).symm.trans hq) (by decide)
  | ok om b' tok' =>
    obtain ⟨a, _, _, _, _, hacc, -⟩ := Http.step_ok hs
    refine Nat.le_of_not_lt fun hl => ?_
    unfold Http.accept at hacc
    rw [hc.body] at hacc
    split at hacc
    · cases hacc
    · rw [if_pos hl] at hacc
      cases hacc

/-- **C59** fails for long messages: whatever server it talks to, TO2 succeeds only if every message the device has sent was
answered and is no longer than the 16 KiB which the servers accept (server.rs:426). A device which is to send more, because of
what the instructions of the owner make it report, never completes. -/
theorem C59_long_message_violated {Sv : Http.Server} {M : Type} {mv : M → Sv.W → Sv.W} {σ0 : Http.St Sv} {kdf : Http.Request Sv → Bool}
    {i : Option Sv.Id} {p hist : List (Http.Event Sv M)} {T : Trace (sig R)} (hT : Http.Talk (X := ops R) mv σ0 kdf i p hist T)
    {w : Credential.Surroundings} {h : SiClient.Host} {l : Credential.Location} {cr : Credential.Cred} {to1d : Sign1} {cl : Http.Client}
    {r : Res (Http.Client × DevErr) Bool} (he : Prog.Ends (to2 c A w h l cr to1d cl : Step R _) T r)
    {s : Http.Sent} {o : Option Http.NetReply} (hm : (⟨.net s, o⟩ : (sig R).Deed) ∈ T) (hl : 16384 < s.body.length) : ∀ b, r ≠ .ok b := by
  rintro b rfl
  exact absurd (answered_small hT (needs_to2 _ _ he) s o hm).2 (Nat.not_le_of_lt hl)

end

section
variable {R : DevEnv} {c : Bool} {B : OwnerServer.VStore (Voucher R.E)} {cfg : OwnerServer.Config R.toOwnerEnv} {Id : Type}
  [DecidableEq Id] {idOf : List Char → Option Id} {A : Http.Aead} {encode : OwnerServer.Resp → Bytes} {M : Type}

local notation "Srv" => OwnerServer.server R.toOwnerEnv c B cfg Id idOf A encode

variable {mv : M → B.W → B.W} {σ0 : Http.St (OwnerServer.server R.toOwnerEnv c B cfg Id idOf A encode)}
  {kdf : Http.Request (OwnerServer.server R.toOwnerEnv c B cfg Id idOf A encode) → Bool} {flag : Bool} {v : Voucher R.E} {h : SiClient.Host}
  {T : Trace (sig R)} {cr : Credential.Cred} {dev : R.E.Pub} {to1d : Sign1} {hist : List (Http.Event (OwnerServer.server R.toOwnerEnv c B cfg Id idOf A encode) M)}

local notation "At" => Http.replay (Sv := Srv) mv σ0
local notation "Good" => Serves (c := c) (B := B) (cfg := cfg) (idOf := idOf) (A := A) (encode := encode) kdf flag cr.guid v h T

/-- **C59**, precisely when: if the surroundings of both do not fail, TO2 succeeds just if every message of the device is answered and
no longer than the server accepts; and then the onboarding is recorded and the instructions are followed. -/
theorem C59_exactly_partial (H : Honest R c A encode cfg cr dev v to1d h T) (hT : Http.Talk (Sv := Srv) (X := ops R) mv σ0 kdf none [] hist T)
    (hS : ∀ h1 rq h2, hist = h1 ++ .request rq :: h2 → Good (At h1) rq)
    {w : Credential.Surroundings} {l : Credential.Location} {r : Res (Http.Client × DevErr) Bool}
    (he : Prog.Ends (to2 c A w h l cr to1d .new : Step R _) T r) :
    ((∃ b, r = .ok b) ↔ Delivered R T) ∧
    ∀ b, r = .ok b → Recorded (R := R) (c := c) (B := B) (cfg := cfg) (idOf := idOf) (A := A) (encode := encode) mv σ0 cr.guid hist ∧
      Followed (R := R) (c := c) (B := B) (cfg := cfg) (idOf := idOf) (A := A) (encode := encode) cr.guid h T hist b := by
  have hd : ∀ b, r = .ok b → Delivered R T := by
    rintro b rfl
    exact answered_small hT (needs_to2 _ _ he)
  refine ⟨⟨fun ⟨b, hb⟩ => hd b hb, fun hD => ?_⟩, fun b hb => ?_⟩
  · obtain ⟨b, hb, -⟩ := C59_completes_partial H hD hT hS he
    exact ⟨b, hb⟩
  · obtain ⟨b', hb', h1, h2⟩ := C59_completes_partial H (hd b hb) hT hS he
    cases hb.symm.trans hb'
    exact ⟨h1, h2⟩

/-- Encodings are not shorter than the bytes they contain. -/
structure Bulky (R : DevEnv) : Prop where
  bytes : ∀ b : Bytes, b.length ≤ (R.encVal (.bytes b)).length
  info : ∀ (si : ServiceInfo) x, x ∈ si → x.2.length ≤ (R.encDeviceSi si).length

/-- Some command which the instructions describe is to return its standard output. -/
def WantsOutput (l : List Item) : Prop :=
  ∃ seg ∈ (SiClient.cmdPieces l).1, (SiClient.valuesOf "return_stdout".toList seg).getLast? = some (.bool true)

theorem reports_stdout : ∀ {segs : List (List Item)} {cs : List SiClient.Cmd} {rs : List SiClient.Ran}, List.Forall₂ SiClient.Describes segs cs →
    List.Forall₂ SiClient.Passed cs rs → (∃ seg ∈ segs, (SiClient.valuesOf "return_stdout".toList seg).getLast? = some (.bool true)) →
    ∃ r ∈ rs, ∃ o, r.output = some o ∧ (.command, "stdout".toList, .bytes o.stdout) ∈ SiClient.reports cs rs
  | seg :: segs, cmd :: cs, r :: rs, .cons d ds, .cons p ps, ⟨s, hs, hv⟩ => by
    rcases List.mem_cons.1 hs with rfl | hs
    · obtain ⟨o, rfl, -⟩ := p
      refine ⟨_, List.mem_cons_self, o, rfl, ?_⟩
      have hw : cmd.wantStdout = true := by
        rcases d.wantStdout with e | ⟨e, -⟩
        · rw [hv] at e
          exact (Val.bool.inj (Option.some.inj e)).symm
        · rw [hv] at e
          cases e
      simp [SiClient.reports, SiClient.reportOf, hw]
    · obtain ⟨r', h1, o, h2, h3⟩ := reports_stdout ds ps ⟨s, hs, hv⟩
      refine ⟨r', List.mem_cons_of_mem _ h1, o, h2, ?_⟩
      simp only [SiClient.reports, List.zip_cons_cons, List.flatMap_cons, List.mem_append] at h3 ⊢
      exact .inr h3

theorem foldl_siAdd (enc : Val → Bytes) : ∀ (l : List Item) (si : ServiceInfo),
    l.foldl (fun si x => siAdd si x.1 x.2.1 (enc x.2.2)) si = si ++ toSi enc l
  | [], si => by simp [toSi]
  | x :: l, si => by
    have h2 := foldl_siAdd enc l (siAdd [] x.1 x.2.1 (enc x.2.2))
    simp only [toSi, List.foldl_cons]
    rw [foldl_siAdd enc l, h2]
    simp [siAdd, toSi]

theorem toSi_mem {enc : Val → Bytes} {x : Item} : ∀ {l : List Item}, x ∈ l → ∃ k, (k, enc x.2.2) ∈ toSi enc l
  | y :: l, h => by
    have e : toSi enc (y :: l) = siAdd [] y.1 y.2.1 (enc y.2.2) ++ toSi enc l := foldl_siAdd enc l _
    rw [e]
    rcases List.mem_cons.1 h with rfl | h
    · exact ⟨_, List.mem_append_left _ (List.mem_singleton.2 rfl)⟩
    · obtain ⟨k, hk⟩ := toSi_mem h
      exact ⟨k, List.mem_append_right _ hk⟩

/-- **C59** fails for commands with much output: if the instructions of the owner contain a command which is to return its standard
output, and commands output more than 16 KiB, then TO2 does not succeed, although both sides and their surroundings work and
the command did what it should: the report about it is one message (client-linuxapp/src/serviceinfo.rs:416-421), which
the server does not accept. -/
theorem C59_large_output_violated (H : Honest R c A encode cfg cr dev v to1d h T) (hB : Bulky R)
    (hT : Http.Talk (Sv := Srv) (X := ops R) mv σ0 kdf none [] hist T)
    (hS : ∀ h1 rq h2, hist = h1 ++ .request rq :: h2 → Good (At h1) rq)
    (hW : ∀ rq, .request rq ∈ hist → ∀ sub clevis l, Instructs R encode rq.oracle.api cr.guid sub clevis l → WantsOutput l)
    (hO : ∀ x ∈ SiClient.ran .command (onHost T), ∀ o, x.output = some o → 16384 < o.stdout.length)
    {w : Credential.Surroundings} {l : Credential.Location} {r : Res (Http.Client × DevErr) Bool}
    (he : Prog.Ends (to2 c A w h l cr to1d .new : Step R _) T r) : ∀ b, r ≠ .ok b := by
  intro b hb
  obtain ⟨-, sub, clevis, os, rq, li, ts, out, h1, -, h3, h4, ⟨rq', k, iv, -, -, h5, h6⟩, h7⟩ := (C59_exactly_partial H hT hS he).2 b hb
  obtain ⟨cs, d1, d2, d3⟩ := (SiClient.C51_commands li ts).2 _ _ h4
  obtain ⟨x, hx, o, ho, hrep⟩ := reports_stdout d1 d2 (hW rq h1 sub clevis li h3)
  have hbig := hO x (by rw [h7]; exact hx) o ho
  rw [← d3] at hrep
  obtain ⟨key, hin⟩ := toSi_mem (enc := R.encVal) (List.mem_filter.1 hrep).1
  have g1 := hB.bytes o.stdout
  have g2 := hB.info _ _ hin
  have g3 := H.secures.grows _ _ _ _ h6
  have g2 : (R.encVal (.bytes o.stdout)).length ≤ (R.encDeviceSi (toSi R.encVal out)).length := g2
  omega

end

end Verif.Device
