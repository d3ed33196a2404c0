import Verif.Props.SiFiles
/-!
Commands run by the device (C51).
-/
namespace Verif.SiClient
open Verif Verif.Types Verif.ServiceInfo

variable {h : Host}

/-- Specification: the instructions about commands, one list for each request to execute. -/
def cmdPieces (l : List Item) : List (List Item) × List Item :=
  splitAfter (fun x => x.2.1 = "execute".toList) (toModule .command l)

/-- A command. -/
structure Cmd where
  prog : List Char
  args : List (List Char)
  mayFail : Bool
  wantStdout : Bool
  wantStderr : Bool

/-- A flag is as last given, and unset if not given. -/
def Flag (seg : List Item) (k : List Char) (b : Bool) : Prop :=
  (valuesOf k seg).getLast? = some (.bool b) ∨ ((valuesOf k seg).getLast? = none ∧ b = false)

/-- Specification: the instructions describe this command: it is given once, arguments and flags are as last given. -/
structure Describes (seg : List Item) (c : Cmd) : Prop where
  command : valuesOf "command".toList seg = [.text c.prog]
  args : (valuesOf "args".toList seg).getLast? = some (.array (c.args.map .text)) ∨
    ((valuesOf "args".toList seg).getLast? = none ∧ c.args = [])
  mayFail : Flag seg "may_fail".toList c.mayFail
  wantStdout : Flag seg "return_stdout".toList c.wantStdout
  wantStderr : Flag seg "return_stderr".toList c.wantStderr

/-- Specification: the command was run and did not fail in a way that is not allowed. -/
def Passed (c : Cmd) (r : Ran) : Prop :=
  ∃ o, r = ⟨c.prog, c.args, none, some o⟩ ∧ (c.mayFail = true ∨ o.code = some 0)

/-- Specification: what is reported about a command that was run: always the exit code, output only as requested. -/
def reportOf (p : Cmd × Ran) : List Item :=
  match p.2.output with
  | none => []
  | some o =>
    (.command, "command".toList, .text p.1.prog) :: (.command, "args".toList, .array (p.1.args.map .text)) ::
      ((if p.1.wantStdout then [(.command, "stdout".toList, .bytes o.stdout)] else []) ++
        (if p.1.wantStderr then [(.command, "stderr".toList, .bytes o.stderr)] else []) ++
        [(.command, "exit_code".toList, match o.code with
          | some n => .int n
          | none => .null)])

/-- The reports about several commands. -/
def reports (cs : List Cmd) (rs : List Ran) : List Item := (cs.zip rs).flatMap reportOf

/-- The part of an answer that is about commands. -/
def aboutCommands (l : List Item) : List Item := l.filter fun x => x.1 = .command

/-- A command in progress and the instructions it comes from. -/
structure CmdMatches (seg : List Item) (c : CmdSt) : Prop where
  command : valuesOf "command".toList seg = (c.command.map Val.text).toList
  args : (valuesOf "args".toList seg).getLast? = some (.array (c.args.map .text)) ∨
    ((valuesOf "args".toList seg).getLast? = none ∧ c.args = [])
  mayFail : Flag seg "may_fail".toList c.mayFail
  wantStdout : Flag seg "return_stdout".toList c.returnStdout
  wantStderr : Flag seg "return_stderr".toList c.returnStderr

theorem cmdMatches_nil : CmdMatches [] {} :=
  ⟨rfl, .inr ⟨rfl, rfl⟩, .inr ⟨rfl, rfl⟩, .inr ⟨rfl, rfl⟩, .inr ⟨rfl, rfl⟩⟩

theorem valuesOf_other {k : List Char} {seg : List Item} {x : Item} (hx : x.2.1 ≠ k) :
    valuesOf k (seg ++ [x]) = valuesOf k seg := by rw [valuesOf_snoc, if_neg hx]

theorem flag_other {seg : List Item} {k : List Char} {b : Bool} {x : Item} (hf : Flag seg k b) (hx : x.2.1 ≠ k) :
    Flag (seg ++ [x]) k b := by
  unfold Flag
  rw [valuesOf_other hx]
  exact hf

theorem flag_set {seg : List Item} {k : List Char} {m : SiModule} {b : Bool} : Flag (seg ++ [(m, k, .bool b)]) k b := by
  unfold Flag
  rw [valuesOf_snoc, if_pos rfl]
  simp

theorem strs_some : ∀ {l : List Val} {r : List (List Char)}, strs l = some r → l = r.map .text
  | [], r, h => by cases h; rfl
  | .text s :: l, r, h => by
    unfold strs at h
    cases hs : strs l with
    | none => rw [hs] at h; cases h
    | some q =>
      rw [hs] at h
      cases h
      rw [strs_some hs]
      rfl
  | .null :: _, _, h => by cases h
  | .bool _ :: _, _, h => by cases h
  | .int _ :: _, _, h => by cases h
  | .float _ :: _, _, h => by cases h
  | .bytes _ :: _, _, h => by cases h
  | .array _ :: _, _, h => by cases h
  | .map _ :: _, _, h => by cases h

theorem asStrs_some {v : Val} {r : List (List Char)} (h : asStrs v = some r) : v = .array (r.map .text) := by
  cases v with
  | array l => rw [strs_some h]
  | _ => cases h

theorem matches_describes {seg : List Item} {c : CmdSt} {p : List Char} {x : Item} (hm : CmdMatches seg c)
    (hp : c.command = some p) (hx : x.2.1 = "execute".toList) :
    Describes (seg ++ [x]) ⟨p, c.args, c.mayFail, c.returnStdout, c.returnStderr⟩ := by
  refine ⟨?_, ?_, flag_other hm.mayFail (by rw [hx]; simp), flag_other hm.wantStdout (by rw [hx]; simp),
    flag_other hm.wantStderr (by rw [hx]; simp)⟩
  · rw [valuesOf_other (by rw [hx]; simp), hm.command, hp]; rfl
  · rw [valuesOf_other (by rw [hx]; simp)]; exact hm.args

/-- Instructions other than the request to execute have no effect. -/
theorem cmdItem_quiet {k : List Char} {v : Val} {c : CmdSt} {out : List Item} (hk : k ≠ "execute".toList) :
    Prog.Only (fun _ => False) (cmdItem k v c out) := by
  unfold cmdItem
  refine only_ite (fun _ => only_ite (fun _ => only_fail) fun _ => only_bind only_some? fun _ => only_pure) fun _ =>
    only_ite (fun _ => only_bind only_some? fun _ => only_pure) fun _ =>
    only_ite (fun _ => only_bind only_some? fun _ => only_pure) fun _ =>
    only_ite (fun _ => only_bind only_some? fun _ => only_pure) fun _ =>
    only_ite (fun _ => only_bind only_some? fun _ => only_pure) fun _ =>
    only_ite (fun h => absurd h hk) fun _ => only_pure

theorem cmdItem_matches {seg : List Item} {k : List Char} {v : Val} {c c' : CmdSt} {out out' : List Item} {t : Trace sig}
    (hk : k ≠ "execute".toList) (hm : CmdMatches seg c) (he : Prog.Ends (cmdItem k v c out) t (.ok (c', out'))) :
    CmdMatches (seg ++ [(.command, k, v)]) c' ∧ out' = out := by
  unfold cmdItem at he
  split at he
  · next hk =>
    subst hk
    split at he
    · exact (Proc.ends_fail he).elim
    · next hn =>
      obtain ⟨s, t1, t2, rfl, h1, h2⟩ := Proc.ends_bind he
      obtain ⟨rfl, hv⟩ := Proc.ends_some? h1
      obtain ⟨rfl, e⟩ := Proc.ends_pure h2
      cases e
      have hn : c.command = none := by simpa using hn
      refine ⟨⟨?_, ?_, flag_other hm.mayFail (by simp), flag_other hm.wantStdout (by simp), flag_other hm.wantStderr (by simp)⟩, rfl⟩
      · rw [valuesOf_snoc, if_pos rfl, hm.command, hn, asStr_some hv]; rfl
      · rw [valuesOf_other (by simp)]; exact hm.args
  · next hk1 =>
    split at he
    · next hk =>
      subst hk
      obtain ⟨s, t1, t2, rfl, h1, h2⟩ := Proc.ends_bind he
      obtain ⟨rfl, hv⟩ := Proc.ends_some? h1
      obtain ⟨rfl, e⟩ := Proc.ends_pure h2
      cases e
      refine ⟨⟨?_, .inl ?_, flag_other hm.mayFail (by simp), flag_other hm.wantStdout (by simp), flag_other hm.wantStderr (by simp)⟩, rfl⟩
      · rw [valuesOf_other (by simp)]; exact hm.command
      · rw [valuesOf_snoc, if_pos rfl, asStrs_some hv]; simp
    · next hk2 =>
      have hargs : (valuesOf "args".toList (seg ++ [(.command, k, v)])).getLast? = some (.array (c.args.map .text)) ∨
          ((valuesOf "args".toList (seg ++ [(.command, k, v)])).getLast? = none ∧ c.args = []) := by
        rw [valuesOf_other hk2]; exact hm.args
      have hcmd : valuesOf "command".toList (seg ++ [(.command, k, v)]) = (c.command.map Val.text).toList := by
        rw [valuesOf_other hk1]; exact hm.command
      split at he
      · next hk =>
        subst hk
        obtain ⟨s, t1, t2, rfl, h1, h2⟩ := Proc.ends_bind he
        obtain ⟨rfl, hv⟩ := Proc.ends_some? h1
        obtain ⟨rfl, e⟩ := Proc.ends_pure h2
        cases e
        obtain rfl := asBool_some hv
        exact ⟨⟨hcmd, hargs, flag_set, flag_other hm.wantStdout (by simp), flag_other hm.wantStderr (by simp)⟩, rfl⟩
      · next hk3 =>
        split at he
        · next hk =>
          subst hk
          obtain ⟨s, t1, t2, rfl, h1, h2⟩ := Proc.ends_bind he
          obtain ⟨rfl, hv⟩ := Proc.ends_some? h1
          obtain ⟨rfl, e⟩ := Proc.ends_pure h2
          cases e
          obtain rfl := asBool_some hv
          exact ⟨⟨hcmd, hargs, flag_other hm.mayFail (by simp), flag_set, flag_other hm.wantStderr (by simp)⟩, rfl⟩
        · next hk4 =>
          split at he
          · next hk =>
            subst hk
            obtain ⟨s, t1, t2, rfl, h1, h2⟩ := Proc.ends_bind he
            obtain ⟨rfl, hv⟩ := Proc.ends_some? h1
            obtain ⟨rfl, e⟩ := Proc.ends_pure h2
            cases e
            obtain rfl := asBool_some hv
            exact ⟨⟨hcmd, hargs, flag_other hm.mayFail (by simp), flag_other hm.wantStdout (by simp), flag_set⟩, rfl⟩
          · next hk5 =>
            obtain ⟨rfl, e⟩ := Proc.ends_pure he
            cases e
            exact ⟨⟨hcmd, hargs, flag_other hm.mayFail hk3, flag_other hm.wantStdout hk4, flag_other hm.wantStderr hk5⟩, rfl⟩

/-- Running a command: it is the last thing done. -/
theorem hoare_run {α : Type} {I : Trace sig → Prop} {m : SiModule} {p : List Char} {args : List (List Char)}
    {input : Option (List Char)} {P : Trace sig → Prop} {Q : Res Err α → Trace sig → Prop} (h0 : ∀ t, P t → I t)
    (h1 : ∀ t o, P t → I (t ++ [(⟨Eff.host m (.run p args input), (some o : Option Output)⟩ : sig.Deed)]))
    (h2 : ∀ t, P t → Q (.err .io) (t ++ [(⟨Eff.host m (.run p args input), (none : Option Output)⟩ : sig.Deed)]))
    (hQ : ∀ r t, Q r t → I t) :
    Hoare remember I P (run m p args input) (Hoare.Mid (fun o t => ∃ t0, P t0 ∧
      t = t0 ++ [(⟨Eff.host m (.run p args input), (some o : Option Output)⟩ : sig.Deed)]) Q) := by
  have hb : ∀ o : Option Output, Hoare remember I
      (fun t => ∃ s, P s ∧ remember s (⟨Eff.host m (.run p args input), o⟩ : sig.Deed) t)
      (Proc.some? .io o) (Hoare.Mid (fun o t => ∃ t0, P t0 ∧
        t = t0 ++ [(⟨Eff.host m (.run p args input), (some o : Option Output)⟩ : sig.Deed)]) Q) := by
    intro o
    cases o with
    | none =>
      refine Hoare.ret ?_ ?_
      · rintro t ⟨s, hs, rfl⟩
        exact hQ _ _ (h2 s hs)
      · rintro t ⟨s, hs, rfl⟩
        exact h2 s hs
    | some o =>
      refine Hoare.ret ?_ ?_
      · rintro t ⟨s, hs, rfl⟩
        exact h1 s o hs
      · rintro t ⟨s, hs, rfl⟩
        exact ⟨s, hs, rfl⟩
  exact Hoare.act h0 hb

/-- Specification: what is done about commands up to some point. The commands run are those described by the pieces of the
message, in order. All of them have passed, or the last one has not and is the last thing that was done at all. -/
def CmdTrace (l : List Item) (t : Trace sig) : Prop :=
  acts .command t = [] ∧ ∃ cs, cs.length ≤ (cmdPieces l).1.length ∧ List.Forall₂ Describes ((cmdPieces l).1.take cs.length) cs ∧
    (List.Forall₂ Passed cs (ran .command t) ∨
     ∃ cs' c t0 o, cs = cs' ++ [c] ∧ t = t0 ++ [⟨.host .command (.run c.prog c.args none), o⟩] ∧
      List.Forall₂ Passed cs' (ran .command t0) ∧ ¬Passed c ⟨c.prog, c.args, none, o⟩)

/-- The invariant of the loop. -/
def CmdInv (a : List Item) (s : St) (t : Trace sig) : Prop :=
  ∃ cs rs, (List.Forall₂ Describes (cmdPieces a).1 cs ∧ CmdMatches (cmdPieces a).2 s.cmd ∧ List.Forall₂ Passed cs rs ∧
    aboutCommands s.out = reports cs rs) ∧ ran .command t = rs ∧ acts .command t = []

theorem cmdPieces_prefix {a l : List Item} (hl : a <+: l) : (cmdPieces a).1 <+: (cmdPieces l).1 := by
  obtain ⟨r, rfl⟩ := hl
  unfold cmdPieces toModule
  rw [List.filter_append]
  exact splitAfter_prefix _ _ _

theorem cmds_of_prefix {a l : List Item} (hl : a <+: l) {cs : List Cmd} (hf : List.Forall₂ Describes (cmdPieces a).1 cs) :
    cs.length ≤ (cmdPieces l).1.length ∧ List.Forall₂ Describes ((cmdPieces l).1.take cs.length) cs := by
  have hp := cmdPieces_prefix hl
  have hlen := hf.length_eq
  refine ⟨by rw [← hlen]; exact hp.length_le, ?_⟩
  rw [← hlen, ← List.prefix_iff_eq_take.1 hp]
  exact hf

theorem cmdInv_trace {a l : List Item} {s : St} {t : Trace sig} (hl : a <+: l) (hi : CmdInv a s t) : CmdTrace l t := by
  obtain ⟨cs, rs, ⟨h1, -, h2, -⟩, h3, h4⟩ := hi
  obtain ⟨g1, g2⟩ := cmds_of_prefix hl h1
  exact ⟨h4, cs, g1, g2, .inl (by rw [h3]; exact h2)⟩

theorem cmdPieces_other {a : List Item} {x : Item} (hx : ¬(x.1 = .command ∧ x.2.1 ≠ "active".toList)) :
    cmdPieces (a ++ [x]) = cmdPieces a := by
  unfold cmdPieces toModule
  rw [List.filter_append, List.filter_cons, if_neg (by simpa using hx)]
  simp

theorem cmdPieces_command {a : List Item} {x : Item} (hx : x.1 = .command) (hk : x.2.1 ≠ "active".toList) :
    cmdPieces (a ++ [x]) = if x.2.1 = "execute".toList then
      ((cmdPieces a).1 ++ [(cmdPieces a).2 ++ [x]], []) else ((cmdPieces a).1, (cmdPieces a).2 ++ [x]) := by
  unfold cmdPieces toModule
  rw [List.filter_append, List.filter_cons, if_pos (by simpa using ⟨hx, hk⟩), List.filter_nil, splitAfter_snoc]
  simp only [decide_eq_true_eq]

theorem reports_snoc {cs : List Cmd} {rs : List Ran} (hl : cs.length = rs.length) (c : Cmd) (r : Ran) :
    reports (cs ++ [c]) (rs ++ [r]) = reports cs rs ++ reportOf (c, r) := by
  unfold reports
  rw [List.zip_append hl, List.flatMap_append]
  simp

theorem reportOf_report {c : CmdSt} {p : List Char} {o : Output} :
    reportOf (⟨p, c.args, c.mayFail, c.returnStdout, c.returnStderr⟩, ⟨p, c.args, none, some o⟩) = report p c o := by
  show _ :: _ :: _ = _
  rw [report, List.append_assoc, List.append_assoc]
  rfl

theorem about_report {c : CmdSt} {p : List Char} {o : Output} : aboutCommands (report p c o) = report p c o := by
  unfold aboutCommands report
  rw [List.filter_eq_self]
  intro x hx
  simp only [List.mem_append, List.mem_cons, List.not_mem_nil, or_false] at hx
  rcases hx with ((( rfl | rfl) | hx) | hx) | rfl
  · rfl
  · rfl
  · split at hx
    · rw [List.mem_singleton.1 hx]; rfl
    · cases hx
  · split at hx
    · rw [List.mem_singleton.1 hx]; rfl
    · cases hx
  · rfl

theorem obey_cmd_same {s s' : St} {m : SiModule} {k : List Char} {v : Val} {t : Trace sig} (hm : m ≠ .command)
    (he : Prog.Ends (obey h s m k v) t (.ok s')) : s'.cmd = s.cmd ∧ aboutCommands s'.out = aboutCommands s.out := by
  have hap := obey_apart he
  refine ⟨hap.cmd hm, ?_⟩
  by_cases hd : m = .diskEncryptionClevis
  · subst hd
    obtain ⟨u, out, h1, rfl⟩ := obey_disk he
    show aboutCommands out = aboutCommands s.out
    unfold diskItem at h1
    split at h1
    · split at h1
      · exact (Proc.ends_fail h1).elim
      · obtain ⟨_, t1, t2, rfl, g1, g2⟩ := Proc.ends_bind h1
        obtain ⟨-, e⟩ := Proc.ends_pure g2
        cases e; rfl
    split at h1
    · split at h1
      · exact (Proc.ends_fail h1).elim
      · obtain ⟨_, t1, t2, rfl, g1, g2⟩ := Proc.ends_bind h1
        obtain ⟨-, e⟩ := Proc.ends_pure g2
        cases e; rfl
    split at h1
    · split at h1
      · exact (Proc.ends_fail h1).elim
      · obtain ⟨_, t1, t2, rfl, g1, g2⟩ := Proc.ends_bind h1
        obtain ⟨-, e⟩ := Proc.ends_pure g2
        cases e; rfl
    split at h1
    · obtain ⟨_, t1, t2, rfl, g1, g2⟩ := Proc.ends_bind h1
      obtain ⟨-, e⟩ := Proc.ends_pure g2
      cases e; rfl
    split at h1
    · obtain ⟨out', t1, t2, rfl, g1, g2⟩ := Proc.ends_bind h1
      obtain ⟨-, e⟩ := Proc.ends_pure g2
      cases e
      unfold diskExecute at g1
      obtain ⟨_, _, _, rfl, -, g1⟩ := Proc.ends_bind g1
      obtain ⟨_, _, _, rfl, -, g1⟩ := Proc.ends_bind g1
      obtain ⟨_, _, _, rfl, -, g1⟩ := Proc.ends_bind g1
      obtain ⟨_, _, _, rfl, -, g1⟩ := Proc.ends_bind g1
      obtain ⟨_, _, _, rfl, -, g1⟩ := Proc.ends_bind g1
      obtain ⟨_, _, _, rfl, -, g1⟩ := Proc.ends_bind g1
      obtain ⟨_, _, _, rfl, -, g1⟩ := Proc.ends_bind g1
      obtain ⟨-, rfl⟩ := Proc.ends_pure g1
      unfold aboutCommands
      rw [List.filter_append]
      simp
    · obtain ⟨-, e⟩ := Proc.ends_pure h1
      cases e; rfl
  · rw [hap.out hm hd]

theorem hoare_execute {l a : List Item} {s : St} {x : Item} {cs : List Cmd} {rs : List Ran} (hl : a ++ [x] <+: l)
    (hx : x.1 = .command) (hk : x.2.1 = "execute".toList) (hd : List.Forall₂ Describes (cmdPieces a).1 cs)
    (hm : CmdMatches (cmdPieces a).2 s.cmd) (hp : List.Forall₂ Passed cs rs) (ho : aboutCommands s.out = reports cs rs) :
    Hoare remember (CmdTrace l) (fun t => ran .command t = rs ∧ acts .command t = []) (execute s.cmd s.out) fun r t =>
      CmdTrace l t ∧ ∀ out, r = .ok out → CmdInv (a ++ [x]) { s with cmd := {}, out := out } t := by
  have h0 : ∀ t, ran .command t = rs ∧ acts .command t = [] → CmdTrace l t := fun t ht =>
    cmdInv_trace ((List.prefix_append _ _).trans hl) (s := s) ⟨cs, rs, ⟨hd, hm, hp, ho⟩, ht⟩
  unfold execute
  cases hc : s.cmd.command with
  | none => exact Hoare.lift h0 fun t ht => ⟨h0 t ht, fun out h => absurd h panic_ne_ok⟩
  | some p =>
    -- the command
    generalize hcdef : (⟨p, s.cmd.args, s.cmd.mayFail, s.cmd.returnStdout, s.cmd.returnStderr⟩ : Cmd) = c
    have hpc : cmdPieces (a ++ [x]) = ((cmdPieces a).1 ++ [(cmdPieces a).2 ++ [x]], []) := by
      rw [cmdPieces_command hx (by rw [hk]; simp), if_pos hk]
    have hdes : List.Forall₂ Describes (cmdPieces (a ++ [x])).1 (cs ++ [c]) := by
      rw [hpc, ← hcdef]
      exact List.rel_append hd (.cons (matches_describes hm hc hk) .nil)
    obtain ⟨g1, g2⟩ := cmds_of_prefix hl hdes
    have hlast : ∀ t (o : Option Output), ran .command t = rs ∧ acts .command t = [] →
        CmdTrace l (t ++ [(⟨Eff.host .command (.run p s.cmd.args none), o⟩ : sig.Deed)]) := by
      intro t o ht
      have e2 : ran .command (t ++ [(⟨Eff.host .command (.run p s.cmd.args none), o⟩ : sig.Deed)]) =
          rs ++ [⟨p, s.cmd.args, none, o⟩] := by rw [ran_append, ht.1]; rfl
      refine ⟨by rw [acts_append, ht.2]; rfl, cs ++ [c], g1, g2, ?_⟩
      by_cases hpass : Passed c ⟨p, s.cmd.args, none, o⟩
      · left
        rw [e2]
        exact List.rel_append hp (.cons hpass .nil)
      · right
        refine ⟨cs, c, t, o, rfl, ?_, by rw [ht.1]; exact hp, ?_⟩
        · rw [← hcdef]
        · rw [← hcdef] at hpass ⊢
          exact hpass
    refine Hoare.bind (hoare_run h0 (fun t o ht => hlast t _ ht)
      (fun t ht => ⟨hlast t none ht, fun out h => absurd h err_ne_ok⟩) (fun _ _ h => h.1)) (fun _ _ h => h.1) fun o => ?_
    refine Hoare.bind (M := fun _ t => (s.cmd.mayFail || o.success) = true ∧ ∃ t0, (ran .command t0 = rs ∧ acts .command t0 = []) ∧
        t = t0 ++ [(⟨Eff.host .command (.run p s.cmd.args none), (some o : Option Output)⟩ : sig.Deed)])
      (Hoare.check ?_ (fun t hb ht => ⟨hb, ht⟩) ?_) (fun _ _ h => h.1) fun _ => Hoare.assume fun hb => Hoare.pure ?_ ?_
    · rintro t ⟨t0, ht, rfl⟩
      exact hlast t0 _ ht
    · rintro t - ⟨t0, ht, rfl⟩
      exact ⟨hlast t0 _ ht, fun out h => absurd h err_ne_ok⟩
    · rintro t ⟨t0, ht, rfl⟩
      exact hlast t0 _ ht
    · rintro t ⟨t0, ht, rfl⟩
      refine ⟨hlast t0 _ ht, fun out hout => ?_⟩
      have hpass : Passed c ⟨p, s.cmd.args, none, some o⟩ := by
        rw [← hcdef]
        refine ⟨o, rfl, ?_⟩
        rcases Bool.or_eq_true _ _ ▸ hb with h | h
        · exact .inl h
        · exact .inr (by simpa [Output.success] using h)
      cases hout
      refine ⟨cs ++ [c], rs ++ [⟨p, s.cmd.args, none, some o⟩], ⟨hdes, ?_, List.rel_append hp (.cons hpass .nil), ?_⟩, ?_, ?_⟩
      · rw [hpc]; exact cmdMatches_nil
      · show aboutCommands (s.out ++ report p s.cmd o) = _
        rw [reports_snoc hp.length_eq, ← hcdef, reportOf_report, aboutCommands, List.filter_append]
        exact congrArg₂ _ ho about_report
      · rw [ran_append, ht.1]; rfl
      · rw [acts_append, ht.2]; rfl

theorem item_cmd {l a : List Item} {s : St} {x : Item} (hl : a ++ [x] <+: l) :
    Hoare remember (CmdTrace l) (CmdInv a s) (item h s x)
      fun r t => CmdTrace l t ∧ ∀ s', r = .ok s' → CmdInv (a ++ [x]) s' t := by
  have hal : a <+: l := (List.prefix_append _ _).trans hl
  obtain ⟨m, k, v⟩ := x
  refine hoare_item (fun t hi => cmdInv_trace hal hi) (fun t e hi => ⟨cmdInv_trace hal hi, fun s' h => absurd h err_ne_ok⟩)
    ?_ ?_ fun hk hm => ?_
  · rintro rfl - t hi
    refine ⟨cmdInv_trace hal hi, fun s' hs' => ?_⟩
    cases hs'
    unfold CmdInv
    rw [cmdPieces_other (by simp)]
    exact hi
  · rintro rfl - t hi
    refine ⟨cmdInv_trace hal hi, fun s' hs' => ?_⟩
    cases hs'
    unfold CmdInv
    rw [cmdPieces_other (by simp)]
    exact hi
  · by_cases hmc : m = .command
    · subst hmc
      refine Hoare.exists_pre fun cs => Hoare.exists_pre fun rs => Hoare.assume fun ⟨hd, hmt, hp, ho⟩ => ?_
      have h0 : ∀ t, ran .command t = rs ∧ acts .command t = [] → CmdTrace l t := fun t ht =>
        cmdInv_trace hal (s := s) ⟨cs, rs, ⟨hd, hmt, hp, ho⟩, ht⟩
      by_cases hke : k = "execute".toList
      · subst hke
        have key := hoare_execute (s := s) hl rfl rfl hd hmt hp ho
        have e : obey h s .command "execute".toList v = (do
            let (c, out) ← (do let out ← execute s.cmd s.out; pure (({} : CmdSt), out) : Proc sig Err (CmdSt × List Item))
            pure { s with cmd := c, out := out }) := rfl
        rw [e]
        refine Hoare.bind (M := fun r t => (r.1 = {} ∧ True) ∧ CmdInv (a ++ [(.command, "execute".toList, v)])
            { s with cmd := {}, out := r.2 } t) (Hoare.bind (M := fun out t => CmdInv (a ++ [(.command, "execute".toList, v)])
            { s with cmd := {}, out := out } t) (key.post fun r t hr => ?_) ?_ fun out => ?_) (fun _ _ h => h.1) fun r =>
            Hoare.assume fun hr => ?_
        · cases r with
          | ok out => exact hr.2 out rfl
          | err e => exact ⟨hr.1, fun f' h => absurd h err_ne_ok⟩
          | panic => exact ⟨hr.1, fun f' h => absurd h panic_ne_ok⟩
        · intro r t hr
          cases r with
          | ok r => exact cmdInv_trace hl hr.2
          | err e => exact hr.1
          | panic => exact hr.1
        · exact Hoare.pure (fun t ht => cmdInv_trace hl ht) fun t ht => ⟨⟨rfl, trivial⟩, ht⟩
        · obtain ⟨c, out⟩ := r
          obtain ⟨rfl : c = {}, -⟩ := hr
          refine Hoare.pure (fun t ht => cmdInv_trace hl ht) fun t ht => ⟨cmdInv_trace hl ht, fun s' hs' => ?_⟩
          cases hs'
          exact ht
      · have hpc : cmdPieces (a ++ [(.command, k, v)]) = ((cmdPieces a).1, (cmdPieces a).2 ++ [(.command, k, v)]) := by
          rw [cmdPieces_command rfl hk, if_neg hke]
        have hq : Prog.Only (fun _ => False) (obey h s .command k v) :=
          only_bind (cmdItem_quiet hke) fun _ => only_pure
        refine (hoare_and (hoare_only hq (J := fun t => ran .command t = rs ∧ acts .command t = [])
          fun _ _ h => h.elim) (R := fun r => ∀ s', r = .ok s' → CmdMatches ((cmdPieces a).2 ++ [(.command, k, v)]) s'.cmd ∧
            s'.out = s.out)
          ?_).conseq (fun _ h => h) (fun r t hr => ⟨h0 t hr.1, fun s' hs' => ?_⟩) h0
        · rintro t r he s' rfl
          obtain ⟨u, out, hu, rfl⟩ := obey_command he
          exact cmdItem_matches hke hmt hu
        · refine ⟨cs, rs, ⟨?_, ?_, hp, ?_⟩, hr.1⟩
          · rw [hpc]; exact hd
          · rw [hpc]; exact (hr.2 s' hs').1
          · rw [(hr.2 s' hs').2]; exact ho
    · refine (hoare_and (hoare_only only_obey (J := CmdInv a s) ?_) (R := fun r => ∀ s', r = .ok s' → s'.cmd = s.cmd ∧
          aboutCommands s'.out = aboutCommands s.out)
        ?_).conseq (fun _ h => h) (fun r t hr => ⟨cmdInv_trace hal hr.1, fun s' hs' => ?_⟩) fun t hi => cmdInv_trace hal hi
      · rintro t d hd' ⟨cs, rs, h1, h2, h3⟩
        refine ⟨cs, rs, h1, ?_, ?_⟩
        · rw [ran_append, h2]
          simp [ran, ranOf_by hd' hmc]
        · rw [acts_append, h3]
          simp [acts, actOf_by hd' hmc]
      · rintro t r he s' rfl
        exact obey_cmd_same hmc he
      · unfold CmdInv
        rw [cmdPieces_other (by simp [hmc]), (hr.2 s' hs').1, (hr.2 s' hs').2]
        exact hr.1

/-- **C51**: whatever the device does about commands while processing a message, up to any point, is running programs:
those described by the instructions since the previous execution, one for each request to execute, in order, with exactly
these arguments and no input. A command that fails (or cannot be started) without being allowed to is the last thing done
at all, and processing does not succeed. If processing succeeds, then all commands have been run and passed, and what is
answered about commands are their reports, in order: always the exit code, output only where requested. -/
theorem C51_commands (l : List Item) (t : Trace sig) :
    (Prog.Does (process h l) t → CmdTrace l t) ∧
    (∀ b out, Prog.Ends (process h l) t (.ok (b, out)) → ∃ cs, List.Forall₂ Describes (cmdPieces l).1 cs ∧
      List.Forall₂ Passed cs (ran .command t) ∧ aboutCommands out = reports cs (ran .command t)) := by
  have key : Hoare remember (CmdTrace l) (fun t => t = []) (process h l) fun r t => CmdTrace l t ∧
      ∀ b out, r = .ok (b, out) → ∃ cs, List.Forall₂ Describes (cmdPieces l).1 cs ∧
      List.Forall₂ Passed cs (ran .command t) ∧ aboutCommands out = reports cs (ran .command t) := by
    refine hoare_process (CmdInv) l ⟨[], [], ⟨.nil, cmdMatches_nil, .nil, rfl⟩, rfl, rfl⟩
      (fun a s t hl hi => cmdInv_trace hl hi)
      (fun a x s hl => item_cmd hl) (fun _ _ h => h.1) (fun t e hi => ⟨hi, fun b x h => absurd h err_ne_ok⟩)
      (fun t hi => ⟨hi, fun b x h => absurd h panic_ne_ok⟩) fun s => ?_
    refine (hoare_and (hoare_only only_finish (J := CmdInv l s) ?_) (R := fun r => ∀ b out, r = .ok (b, out) → out = s.out)
      ?_).conseq (fun _ h => h)
      (fun r t hi => ⟨cmdInv_trace (List.prefix_refl _) hi.1, fun b out hr => ?_⟩) fun t hi => cmdInv_trace (List.prefix_refl _) hi
    · rintro t d hd ⟨cs, rs, h1, h2, h3⟩
      refine ⟨cs, rs, h1, ?_, ?_⟩
      · rw [ran_append, h2]
        rcases hd with hd | hd <;> simp [ran, ranOf_by hd]
      · rw [acts_append, h3]
        rcases hd with hd | hd <;> simp [acts, actOf_by hd]
    · rintro t r he b out rfl
      obtain ⟨_, u1, u2, rfl, g1, g2⟩ := Proc.ends_bind he
      obtain ⟨_, w1, w2, rfl, f1, f2⟩ := Proc.ends_bind g2
      obtain ⟨-, e⟩ := Proc.ends_pure f2
      cases e
      rfl
    · obtain ⟨⟨cs, rs, ⟨h1, -, h2, h3⟩, h4, -⟩, hout⟩ := hi
      rw [hout b out hr, h4]
      exact ⟨cs, h1, h2, h3⟩
  exact ⟨(key.trace t).1, fun b out he => ((key.trace t).2 _ he).2 b out rfl⟩

end Verif.SiClient
