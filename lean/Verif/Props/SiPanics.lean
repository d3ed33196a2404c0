import Verif.Props.SiCommands
/-!
When the device aborts while processing service info (last part of C51).
-/
namespace Verif.SiClient
open Verif Verif.Types Verif.ServiceInfo

variable {h : Host} {α β : Type} {ψ : Prop} {φ : sig.Deed → Prop}

/-- The program aborts only for a reason in the message (`ψ`) or in an answer of the host (`φ`). -/
def Blame (ψ : Prop) (φ : sig.Deed → Prop) (p : Proc sig Err α) : Prop :=
  ∀ t, Prog.Ends p t .panic → ψ ∨ ∃ d ∈ t, φ d

theorem blame_bind {p : Proc sig Err α} {f : α → Proc sig Err β} (hp : Blame ψ φ p)
    (hf : ∀ a t, Prog.Ends p t (.ok a) → Blame (ψ ∨ ∃ d ∈ t, φ d) φ (f a)) : Blame ψ φ (p >>= f : Proc sig Err β) := by
  intro t he
  rcases Proc.ends_bind' he with ⟨a, t1, t2, rfl, h1, h2⟩ | ⟨e, -, h⟩ | ⟨h1, -⟩
  · rcases hf a t1 h1 t2 h2 with (h | ⟨d, hd, h⟩) | ⟨d, hd, h⟩
    · exact .inl h
    · exact .inr ⟨d, List.mem_append_left _ hd, h⟩
    · exact .inr ⟨d, List.mem_append_right _ hd, h⟩
  · cases h
  · exact hp t h1

theorem blame_mono {ψ' : Prop} {p : Proc sig Err α} (hp : Blame ψ φ p) (hψ : ψ → ψ') : Blame ψ' φ p := fun t he =>
  (hp t he).imp hψ id

/-- Going on with something that does not depend on how it was reached. -/
theorem blame_then {p : Proc sig Err α} {f : α → Proc sig Err β} (hp : Blame ψ φ p) (hf : ∀ a, Blame ψ φ (f a)) :
    Blame ψ φ (p >>= f : Proc sig Err β) := blame_bind hp fun a _ _ => blame_mono (hf a) .inl

theorem blame_pure {a : α} : Blame ψ φ (pure a) := fun _ he => by cases (Prog.ends_ret he).2
theorem blame_fail {e : Err} : Blame ψ φ (Proc.fail e : Proc sig Err α) := fun _ he => by cases (Prog.ends_ret he).2
theorem blame_lift {r : Res Err α} (hr : r = .panic → ψ) : Blame ψ φ (Proc.lift r) := fun _ he => .inl (hr (Prog.ends_ret he).2)
theorem blame_check {e : Err} {b : Bool} : Blame ψ φ (Proc.check e b) := fun _ he => by
  cases b <;> cases (Prog.ends_ret he).2
theorem blame_some? {e : Err} {o : Option α} : Blame ψ φ (Proc.some? e o) := fun _ he => by
  cases o <;> cases (Prog.ends_ret he).2
theorem blame_ask {m : SiModule} {op : Op} : Blame ψ φ (ask m op) := fun _ he => by
  obtain ⟨a, h, -⟩ := Proc.ends_ask he
  cases h
theorem blame_must {m : SiModule} {a : Act} : Blame ψ φ (must m a) := blame_then blame_ask fun _ => blame_check
theorem blame_run {m : SiModule} {p : List Char} {args : List (List Char)} {i : Option (List Char)} :
    Blame ψ φ (run m p args i) := blame_then blame_ask fun _ => blame_some?
theorem blame_when {b : Bool} {p : Proc sig Err Unit} (hp : Blame ψ φ p) : Blame ψ φ (when b p) := by
  cases b
  · exact blame_pure
  · exact hp

theorem blame_ite {c : Prop} [i : Decidable c] {p q : Proc sig Err α} (hp : c → Blame ψ φ p) (hq : ¬c → Blame ψ φ q) :
    Blame ψ φ (if c then p else q) := by
  cases i with
  | isTrue h => exact hp h
  | isFalse h => exact hq h

/-- Specification: an answer of the host that makes the device abort: a user database in which the line of some user has
too few fields, or output of `openssl` that is not UTF-8. -/
def BadAnswer (d : sig.Deed) : Prop :=
  (∃ (f user : List Char), d = ⟨.host .sshKey .passwd, (some f : Option (List Char))⟩ ∧ Text.uidGidHome (some f) user = .panic) ∨
  (∃ (args : List (List Char)) (i : Option (List Char)) (o : Output),
    d = ⟨.host .sshKey (.run "openssl".toList args i), (some o : Option Output)⟩ ∧ String.fromUTF8? ⟨o.stdout.toArray⟩ = none)

theorem blame_userExists {user : List Char} : Blame ψ φ (userExists user) := by
  refine blame_then blame_ask fun f => blame_lift fun h => ?_
  change users (Text.isUser (f : Option (List Char)) user) = .panic at h
  have : ∀ f : Option (List Char), users (Text.isUser f user) ≠ .panic := by
    intro f
    cases f <;> nofun
  exact absurd h (this f)

theorem blame_createUser {user : List Char} : Blame ψ φ (createUser user) :=
  blame_then blame_userExists fun _ => blame_ite (fun _ => blame_pure) fun _ => blame_then blame_run fun _ => blame_check

theorem ends_run {m : SiModule} {p : List Char} {args : List (List Char)} {i : Option (List Char)} {o : Output} {t : Trace sig}
    (he : Prog.Ends (run m p args i) t (.ok o)) : t = [⟨.host m (.run p args i), (some o : Option Output)⟩] := by
  obtain ⟨a, t1, t2, rfl, h1, h2⟩ := Proc.ends_bind he
  obtain ⟨a', h, rfl⟩ := Proc.ends_ask h1
  cases h
  obtain ⟨rfl, h⟩ := Proc.ends_some? h2
  have h : a = some o := h
  subst h
  rfl

theorem blame_encrypt {pw : List Char} : Blame ψ BadAnswer (encrypt h pw) := by
  refine blame_ite (fun _ => blame_pure) fun _ => blame_bind blame_run fun o t he => ?_
  rw [ends_run he]
  split
  · next hs => exact blame_lift fun _ => .inr ⟨_, List.mem_singleton_self _, .inr ⟨_, _, o, rfl, hs⟩⟩
  · exact blame_pure

theorem blame_createUserWithPassword {user pw : List Char} : Blame ψ BadAnswer (createUserWithPassword h user pw) :=
  blame_then blame_userExists fun _ => blame_ite (fun _ => blame_pure) fun _ => blame_then blame_encrypt fun _ =>
    blame_then blame_run fun _ => blame_check

theorem blame_there {m : SiModule} {p : Path} : Blame ψ φ (there m p) := blame_ask

theorem blame_installKey {user key : List Char} : Blame ψ BadAnswer (installKey h user key) := by
  refine blame_bind blame_ask fun f t he => ?_
  obtain ⟨f', hf, rfl⟩ := Proc.ends_ask he
  cases hf
  have hb : ∀ f : Option (List Char), users (Text.uidGidHome f user) = .panic →
      (ψ ∨ ∃ d ∈ ([⟨.host .sshKey .passwd, f⟩] : Trace sig), BadAnswer d) := by
    intro f hp
    cases f with
    | none => cases hp
    | some f =>
      refine .inr ⟨_, List.mem_singleton_self _, .inl ⟨f, user, rfl, ?_⟩⟩
      cases hu : Text.uidGidHome (some f) user with
      | ok x => rw [hu] at hp; cases hp
      | err e => rw [hu] at hp; cases hp
      | panic => rfl
  refine blame_then (blame_lift (hb f)) fun x => ?_
  refine blame_then ?_ fun p => blame_then blame_there fun b => blame_then ?_ fun c => blame_then blame_must fun _ =>
    blame_then blame_must fun _ => blame_then blame_must fun _ => blame_must
  · split
    · exact blame_pure
    · exact blame_then blame_there fun b => blame_then (blame_when (blame_then blame_must fun _ => blame_then blame_must fun _ =>
        blame_must)) fun _ => blame_pure
  · exact blame_ite (fun _ => blame_then blame_ask fun _ => blame_some?) fun _ => blame_pure

theorem blame_installKeys {user : List Char} : ∀ ks, Blame ψ BadAnswer (installKeys h user ks)
  | [] => blame_pure
  | _ :: r => blame_then blame_installKey fun _ => blame_installKeys r

theorem blame_setUpUser {u : UserSt} : Blame ψ BadAnswer (setUpUser h u) := by
  unfold setUpUser
  refine blame_then blame_some? fun user => blame_then blame_check fun _ => blame_then ?_ fun _ => ?_
  · split
    · exact blame_createUserWithPassword
    · exact blame_pure
  · split
    · exact blame_then blame_createUser fun _ => blame_installKeys _
    · exact blame_pure

theorem blame_rhsm {r : RhsmSt} : Blame ψ φ (rhsm r) := by
  unfold rhsm
  split
  · exact blame_then blame_run fun _ => blame_when (blame_then blame_run fun _ => blame_pure)
  · exact blame_fail

theorem blame_finish {s : St} : Blame ψ BadAnswer (finish h s) :=
  blame_then (blame_when blame_setUpUser) fun _ => blame_then (blame_when blame_rhsm) fun _ => blame_pure

theorem blame_deploy {p : Path} {c : Bytes} {m : Option Nat} (hp : (∃ q, destination h p = some q ∧ parent q = none) → ψ) :
    Blame ψ φ (deploy h p c m) := by
  refine blame_bind blame_some? fun q t he => ?_
  obtain ⟨-, hq⟩ := Proc.ends_some? he
  split
  · next hn => exact blame_lift fun _ => .inl (hp ⟨q, hq, hn⟩)
  · exact blame_then blame_must fun _ => blame_then blame_must fun _ => blame_then blame_must fun _ =>
      blame_then blame_must fun _ => blame_must

/-- Specification: an instruction about files that makes the device abort: a length of 2^63 or more (after being cut to 64
bits), or a path without a parent. -/
def BadFile (h : Host) (l : List Item) : Prop :=
  (∃ n : Int, (.binaryFile, "length".toList, .int n) ∈ l ∧ 2 ^ 63 ≤ n % 2 ^ 64) ∨
  (∃ p q, (.binaryFile, "name".toList, .text p) ∈ l ∧ destination h p = some q ∧ parent q = none)

theorem blame_fileItem {seg : List Item} {k : List Char} {v : Val} {f : FileSt}
    (hd : ∀ t b, (h.digest t b).length = t.digestSize) (hm : FileMatches seg f)
    (hseg : ∀ x ∈ seg, x.1 = .binaryFile) : Blame (BadFile h (seg ++ [(.binaryFile, k, v)])) φ (fileItem h k v f) := by
  unfold fileItem
  refine blame_ite (fun _ => blame_ite (fun _ => blame_fail) fun _ => blame_then blame_some? fun _ => blame_pure) fun _ =>
    blame_ite (fun hk => blame_ite (fun _ => blame_fail) fun _ => blame_bind blame_some? fun n t he => ?_) fun _ =>
    blame_ite (fun _ => ?_) fun _ =>
    blame_ite (fun _ => blame_ite (fun _ => blame_fail) fun _ => blame_then blame_some? fun _ => blame_pure) fun _ =>
    blame_ite (fun _ => ?_) fun _ => blame_pure
  · refine blame_ite (fun _ => blame_pure) fun hn => blame_lift fun _ => .inl (.inl ?_)
    obtain ⟨-, ho⟩ := Proc.ends_some? he
    cases v with
    | int z =>
      cases ho
      refine ⟨z, by simp [hk], ?_⟩
      omega
    | _ => cases ho
  · split
    · exact blame_fail
    · exact blame_then blame_some? fun _ => blame_pure
  · refine blame_then blame_some? fun d => blame_then blame_some? fun ty => blame_bind blame_check fun _ t1 h1 =>
      blame_bind blame_some? fun p t2 h2 => blame_then blame_some? fun b => blame_then blame_check fun _ =>
      blame_then (blame_lift fun hp => ?_) fun _ => blame_then (blame_deploy fun hq => ?_) fun _ => blame_pure
    · obtain ⟨-, hlen⟩ := Proc.ends_check h1
      exfalso
      have hlen : d.length = ty.digestSize := by simpa using hlen
      unfold checkDigest memcmpEq at hp
      rw [if_neg (by rw [hd, hlen]; simp)] at hp
      split at hp
      · cases hp
      · cases hp
      · cases hp
      · next h => cases h
    · obtain ⟨-, hp⟩ := Proc.ends_some? h2
      obtain ⟨q, hq1, hq2⟩ := hq
      refine .inl (.inl (.inr ⟨p, q, ?_, hq1, hq2⟩))
      have hv : Val.text p ∈ valuesOf "name".toList seg := by rw [hm.name, hp]; simp
      unfold valuesOf at hv
      obtain ⟨⟨m, k', v'⟩, hx, rfl : v' = Val.text p⟩ := List.mem_map.1 hv
      obtain ⟨hx, hk'⟩ := List.mem_filter.1 hx
      have := hseg _ hx
      simp only [decide_eq_true_eq] at hk' this
      subst hk' this
      exact List.mem_append_left _ hx

theorem blame_cmdItem {k : List Char} {v : Val} {c : CmdSt} {out : List Item}
    (hψ : k = "execute".toList → c.command = none → ψ) : Blame ψ φ (cmdItem k v c out) := by
  unfold cmdItem
  refine blame_ite (fun _ => blame_ite (fun _ => blame_fail) fun _ => blame_then blame_some? fun _ => blame_pure) fun _ =>
    blame_ite (fun _ => blame_then blame_some? fun _ => blame_pure) fun _ =>
    blame_ite (fun _ => blame_then blame_some? fun _ => blame_pure) fun _ =>
    blame_ite (fun _ => blame_then blame_some? fun _ => blame_pure) fun _ =>
    blame_ite (fun _ => blame_then blame_some? fun _ => blame_pure) fun _ =>
    blame_ite (fun hk => blame_then ?_ fun _ => blame_pure) fun _ => blame_pure
  unfold execute
  split
  · next hc => exact blame_lift fun _ => hψ hk hc
  · exact blame_then blame_run fun _ => blame_then blame_check fun _ => blame_pure

theorem blame_diskItem {k : List Char} {v : Val} {d : DiskSt} {out : List Item} : Blame ψ φ (diskItem k v d out) := by
  unfold diskItem
  exact blame_ite (fun _ => blame_ite (fun _ => blame_fail) fun _ => blame_then blame_some? fun _ => blame_pure) fun _ =>
    blame_ite (fun _ => blame_ite (fun _ => blame_fail) fun _ => blame_then blame_some? fun _ => blame_pure) fun _ =>
    blame_ite (fun _ => blame_ite (fun _ => blame_fail) fun _ => blame_then blame_some? fun _ => blame_pure) fun _ =>
    blame_ite (fun _ => blame_then blame_some? fun _ => blame_pure) fun _ =>
    blame_ite (fun _ => blame_then (blame_then blame_some? fun _ => blame_then blame_some? fun _ => blame_then blame_some? fun _ =>
      blame_then blame_must fun _ => blame_then blame_must fun _ => blame_then blame_must fun _ =>
      blame_then (blame_when blame_must) fun _ => blame_pure) fun _ => blame_pure) fun _ => blame_pure

/-- Specification: a request to execute without a command since the previous one. -/
def BadCommand (l : List Item) : Prop := ∃ seg ∈ (cmdPieces l).1, valuesOf "command".toList seg = []

theorem badFile_mono {l l' : List Item} (hb : BadFile h l) (hs : ∀ x ∈ l, x ∈ l') : BadFile h l' := by
  rcases hb with ⟨n, h1, h2⟩ | ⟨p, q, h1, h2⟩
  · exact .inl ⟨n, hs _ h1, h2⟩
  · exact .inr ⟨p, q, hs _ h1, h2⟩

theorem badCommand_mono {a l : List Item} (hb : BadCommand a) (hl : a <+: l) : BadCommand l := by
  obtain ⟨seg, h1, h2⟩ := hb
  exact ⟨seg, (cmdPieces_prefix hl).subset h1, h2⟩

theorem rest_mem {p : Item → Bool} {m : SiModule} {l : List Item} {x : Item} (hx : x ∈ (splitAfter p (toModule m l)).2) :
    x ∈ l ∧ x.1 = m := by
  have : x ∈ toModule m l := by
    rw [← splitAfter_flatten p (toModule m l)]
    exact List.mem_append_right _ hx
  obtain ⟨h1, h2⟩ := List.mem_filter.1 this
  simp only [ne_eq, decide_not, Bool.decide_and, Bool.and_eq_true, decide_eq_true_eq] at h2
  exact ⟨h1, h2.1⟩

theorem blame_item {l a : List Item} {s : St} {x : Item} (hd : ∀ t b, (h.digest t b).length = t.digestSize)
    (hl : a ++ [x] <+: l) (hf : FileMatches (filePieces a).2 s.file) (hc : CmdMatches (cmdPieces a).2 s.cmd) :
    Blame (BadFile h l ∨ BadCommand l) BadAnswer (item h s x) := by
  obtain ⟨m, k, v⟩ := x
  refine blame_ite (fun _ => blame_then blame_some? fun _ => blame_pure) fun hk => blame_ite (fun _ => ?_) fun _ => blame_fail
  cases m with
  | sshKey =>
    refine blame_then ?_ fun _ => blame_pure
    exact blame_ite (fun _ => blame_then blame_some? fun _ => blame_pure) fun _ =>
      blame_ite (fun _ => blame_then blame_some? fun _ => blame_pure) fun _ =>
      blame_ite (fun _ => blame_then blame_some? fun _ => blame_pure) fun _ => blame_pure
  | reboot => exact blame_ite (fun _ => blame_then blame_some? fun _ => blame_pure) fun _ => blame_pure
  | subscriptionManager =>
    refine blame_then ?_ fun _ => blame_pure
    exact blame_ite (fun _ => blame_then blame_some? fun _ => blame_pure) fun _ =>
      blame_ite (fun _ => blame_then blame_some? fun _ => blame_pure) fun _ =>
      blame_ite (fun _ => blame_then blame_some? fun _ => blame_pure) fun _ => blame_pure
  | binaryFile =>
    refine blame_then (blame_mono (blame_fileItem hd hf fun x hx => (rest_mem hx).2) fun hb => .inl (badFile_mono hb fun x hx => ?_))
      fun _ => blame_pure
    refine hl.subset ?_
    rcases List.mem_append.1 hx with hx | hx
    · exact List.mem_append_left _ (rest_mem hx).1
    · exact List.mem_append_right _ hx
  | command =>
    refine blame_then (blame_cmdItem fun he hn => .inr ?_) fun _ => blame_pure
    refine badCommand_mono ?_ hl
    subst he
    refine ⟨(cmdPieces a).2 ++ [(.command, "execute".toList, v)], ?_, ?_⟩
    · rw [cmdPieces_command rfl hk, if_pos rfl]; simp
    · rw [valuesOf_other (by simp), hc.command, hn]; rfl
  | diskEncryptionClevis => exact blame_then blame_diskItem fun _ => blame_pure
  | _ => exact blame_pure

theorem blame_items {l : List Item} (hd : ∀ t b, (h.digest t b).length = t.digestSize) : ∀ (r a : List Item) (s : St),
    a ++ r <+: l → FileMatches (filePieces a).2 s.file → CmdMatches (cmdPieces a).2 s.cmd →
    Blame (BadFile h l ∨ BadCommand l) BadAnswer (items h s r) := by
  intro r
  induction r with
  | nil => intro a s _ _ _; exact blame_pure
  | cons x r ih =>
    intro a s hl hf hc
    have hl1 : a ++ [x] <+: l := (List.prefix_append (a ++ [x]) r).trans (by simpa using hl)
    refine blame_bind (blame_item hd hl1 hf hc) fun s' t he => blame_mono (ih (a ++ [x]) s' (by simpa using hl) ?_ ?_) .inl
    · obtain ⟨m, k, v⟩ := x
      unfold item at he
      simp only at he
      split at he
      · next hk =>
        obtain ⟨b, u1, u2, rfl, g1, g2⟩ := Proc.ends_bind he
        obtain ⟨rfl, rfl⟩ := Proc.ends_pure g2
        rw [filePieces_other (by simp [hk])]
        exact hf
      · next hk =>
        split at he
        · by_cases hm : m = .binaryFile
          · subst hm
            obtain ⟨u, hu, rfl⟩ := obey_file he
            rw [filePieces_file rfl hk]
            cases hsha : "sha-".toList.isPrefixOf k with
            | true =>
              simp only [if_true]
              have : u = {} := by
                obtain ⟨r', hr'⟩ := prefix_iff.1 hsha
                unfold fileItem at hu
                rw [if_neg (by rw [hr']; simp), if_neg (by rw [hr']; simp), if_neg (by rw [hr']; simp), if_neg (by rw [hr']; simp),
                  if_pos hsha] at hu
                obtain ⟨_, _, _, rfl, -, hu⟩ := Proc.ends_bind hu
                obtain ⟨_, _, _, rfl, -, hu⟩ := Proc.ends_bind hu
                obtain ⟨_, _, _, rfl, -, hu⟩ := Proc.ends_bind hu
                obtain ⟨_, _, _, rfl, -, hu⟩ := Proc.ends_bind hu
                obtain ⟨_, _, _, rfl, -, hu⟩ := Proc.ends_bind hu
                obtain ⟨_, _, _, rfl, -, hu⟩ := Proc.ends_bind hu
                obtain ⟨_, _, _, rfl, -, hu⟩ := Proc.ends_bind hu
                obtain ⟨_, _, _, rfl, -, hu⟩ := Proc.ends_bind hu
                exact (Proc.ends_pure hu).2.symm
              rw [this]
              exact matches_nil
            | false =>
              simp only [Bool.false_eq_true, if_false]
              exact fileItem_matches hsha hf hu
          · rw [filePieces_other (by simp [hm]), (obey_apart he).file hm]
            exact hf
        · exact (Proc.ends_fail he).elim
    · obtain ⟨m, k, v⟩ := x
      unfold item at he
      simp only at he
      split at he
      · next hk =>
        obtain ⟨b, u1, u2, rfl, g1, g2⟩ := Proc.ends_bind he
        obtain ⟨rfl, rfl⟩ := Proc.ends_pure g2
        rw [cmdPieces_other (by simp [hk])]
        exact hc
      · next hk =>
        split at he
        · by_cases hm : m = .command
          · subst hm
            obtain ⟨u, out, hu, rfl⟩ := obey_command he
            rw [cmdPieces_command rfl hk]
            by_cases hex : k = "execute".toList
            · subst hex
              rw [if_pos rfl]
              have : u = {} := by
                have hu' : Prog.Ends (do let out ← execute s.cmd s.out; pure (({} : CmdSt), out) : Proc sig Err (CmdSt × List Item)) t
                  (.ok (u, out)) := hu
                obtain ⟨_, _, _, rfl, -, hu⟩ := Proc.ends_bind hu'
                obtain ⟨-, e⟩ := Proc.ends_pure hu
                cases e; rfl
              rw [this]
              exact cmdMatches_nil
            · rw [if_neg hex]
              exact (cmdItem_matches hex hc hu).1
          · rw [cmdPieces_other (by simp [hm]), (obey_apart he).cmd hm]
            exact hc
        · exact (Proc.ends_fail he).elim

/-- **C51**, aborts: the device aborts while processing a message only if the message requests an execution without giving a
command, or has a file of enormous length or whose path is the root, or the user database has a line with too few
fields, or `openssl` writes something that is not UTF-8. The digests of the host must have the sizes of their algorithms.
(Missing: that it never aborts, see `C51_abort_violated`.) -/
theorem C51_abort_partial (hd : ∀ t b, (h.digest t b).length = t.digestSize) (l : List Item) (t : Trace sig)
    (he : Prog.Ends (process h l) t .panic) :
    (∃ seg ∈ (cmdPieces l).1, valuesOf "command".toList seg = []) ∨ BadFile h l ∨ ∃ d ∈ t, BadAnswer d := by
  have : Blame (BadFile h l ∨ BadCommand l) BadAnswer (process h l) :=
    blame_then (blame_items hd l [] {} (List.prefix_refl _) matches_nil cmdMatches_nil) fun s => blame_finish
  rcases this t he with (h | h) | h
  · exact .inr (.inl h)
  · exact .inl h
  · exact .inr (.inr h)

namespace Toy

/-- A command with these flags. -/
def cmdMessage (mayFail : Bool) : List Item :=
  [(.command, "active".toList, .bool true), (.command, "command".toList, .text "ls".toList),
   (.command, "args".toList, .array [.text "-l".toList]), (.command, "may_fail".toList, .bool mayFail),
   (.command, "return_stdout".toList, .bool true), (.command, "execute".toList, .bool true),
   (.command, "command".toList, .text "id".toList), (.command, "execute".toList, .bool true)]

end Toy

/-- A message as in `C51_commands`, with two commands; both fail, and are allowed to only in the first case. -/
example : (∃ out, Prog.Ends (process Toy.host (Toy.cmdMessage true)) (Toy.trace (some 0) Toy.all (Toy.cmdMessage true))
      (.ok (false, out))) ∧ (cmdPieces (Toy.cmdMessage true)).1.length = 2 ∧
    Toy.outcome (some 1) Toy.all (Toy.cmdMessage false) = .err .failed ∧
    (Toy.trace (some 1) Toy.all (Toy.cmdMessage false)).map Sigma.fst = [.host .command (.run "ls".toList ["-l".toList] none)] ∧
    (Toy.trace (some 1) Toy.all (Toy.cmdMessage true)).map Sigma.fst =
      [.host .command (.run "ls".toList ["-l".toList] none), .host .command (.run "id".toList [] none)] :=
  ⟨Toy.outcome_ok (by decide +kernel), by decide +kernel, by decide +kernel, by decide +kernel, by decide +kernel⟩

/-- A message aborts the device: a request to execute without a command, an enormous length, or the root as a path. -/
theorem C51_abort_violated : ∃ (h : Host), (∀ t b, (h.digest t b).length = t.digestSize) ∧
    (∃ t, Prog.Ends (process h [(.command, "active".toList, .bool true), (.command, "execute".toList, .bool true)]) t .panic) ∧
    (∃ t, Prog.Ends (process h [(.binaryFile, "active".toList, .bool true), (.binaryFile, "length".toList, .int (-1))]) t .panic) ∧
    (∃ t d, Prog.Ends (process h [(.binaryFile, "active".toList, .bool true), (.binaryFile, "name".toList, .text "/".toList),
      (.binaryFile, "length".toList, .int 0), (.binaryFile, "sha-256".toList, .bytes d)]) t .panic) := by
  refine ⟨Toy.host, ?_, ⟨_, Toy.outcome_panic (code := some 0) (good := Toy.all) (by decide +kernel)⟩,
    ⟨_, Toy.outcome_panic (code := some 0) (good := Toy.all) (by decide +kernel)⟩,
    ⟨_, Toy.host.digest .sha256 [], Toy.outcome_panic (code := some 0) (good := Toy.all) (by decide +kernel)⟩⟩
  intro t b
  cases t <;> rfl

/-- Of a command that fails nothing is ever reported: neither its exit code nor its output. In particular a command that
could not be started stops everything although it was declared allowed to fail. -/
theorem C51_report_violated :
    (∃ (h : Host) (l : List Item) (t : Trace sig) (r : Ran), Prog.Ends (process h l) t (.err .failed) ∧ ran .command t = [r] ∧
      r.output = some ⟨some 1, [104, 105], []⟩) ∧
    (∃ (h : Host) (l : List Item) (t : Trace sig), Flag (toModule .command l) "may_fail".toList true ∧
      Prog.Ends (process h l) t (.err .io)) := by
  refine ⟨⟨Toy.host, Toy.cmdMessage false, _, _, Toy.outcome_err (code := some 1) (good := Toy.all) (by decide +kernel), rfl, rfl⟩, ?_⟩
  refine ⟨Toy.host, [(.command, "active".toList, .bool true), (.command, "command".toList, .text "ls".toList),
    (.command, "may_fail".toList, .bool true), (.command, "execute".toList, .bool true)],
    [⟨.host .command (.run "ls".toList [] none), (none : Option Output)⟩], .inl rfl, ?_⟩
  exact .cons (.nil _)

end Verif.SiClient
