import Verif.Props.SiHonest
import Verif.Lemmas.Utf8
/-!
Users and keys on a device: from the settings of the service info server to the file of authorized keys (C52), and the
creation of users (C70).
-/
namespace Verif.SiClient
open Verif Verif.Types Verif.ServiceInfo

/-! ### Specification of a file system -/

/-- Text as it is in a file. -/
def utf8 (s : List Char) : Bytes := (String.ofList s).toUTF8.toList

theorem utf8_inj {a b : List Char} (h : utf8 a = utf8 b) : a = b := by
  unfold utf8 at h
  rw [Utf8.toList_eq, Utf8.toList_eq, Array.toList_inj] at h
  have h2 : (String.ofList a).toUTF8 = (String.ofList b).toUTF8 := ByteArray.ext h
  have h3 : String.ofList a = String.ofList b := String.toByteArray_inj.1 h2
  simpa using congrArg String.toList h3

/-- The files of a device: contents, mode and owner. Paths are told apart by their spelling. -/
structure World where
  files : Path → Option Bytes
  mode : Path → Option Nat
  owner : Path → Option (Nat × Nat)

/-- Nothing changed but perhaps at `p`. -/
structure SameOff (p : Path) (w w' : World) : Prop where
  files : ∀ q, q ≠ p → w'.files q = w.files q
  mode : ∀ q, q ≠ p → w'.mode q = w.mode q
  owner : ∀ q, q ≠ p → w'.owner q = w.owner q

/-- What a change does to the files, and what it does if it fails. Directories and disks are not files. -/
def Changes (w : World) : Act → Bool → World → Prop
  | .create p, ok, w' => SameOff p w w' ∧ (ok = true → w'.files p = some [])
  | .append p b, ok, w' => SameOff p w w' ∧
    (ok = true → w'.files p = (w.files p).map (· ++ b) ∧ w'.mode p = w.mode p ∧ w'.owner p = w.owner p)
  | .setMode p m, ok, w' => SameOff p w w' ∧ (ok = true → w'.files p = w.files p ∧ w'.mode p = some m ∧ w'.owner p = w.owner p)
  | .chown p u g, ok, w' => SameOff p w w' ∧ (ok = true → w'.files p = w.files p ∧ w'.mode p = w.mode p ∧ w'.owner p = some (u, g))
  | _, _, w' => w' = w

/-- Specification: how answers of the host and the files go together. Programs may change any file. -/
def step (w : World) (d : sig.Deed) (w' : World) : Prop :=
  match d with
  | ⟨.host _ (.does a), ok⟩ => Changes w a ok w'
  | ⟨.host _ (.exists? p), b⟩ => w' = w ∧ (w.files p ≠ none → b = true)
  | ⟨.host _ (.readText p), c⟩ => w' = w ∧ ∀ s, c = some s → w.files p = some (utf8 s)
  | ⟨.host _ .passwd, c⟩ => w' = w ∧ ∀ s, c = some s → w.files "/etc/passwd".toList = some (utf8 s)
  | ⟨.host _ (.run _ _ _), _⟩ => True
  | _ => w' = w

/-- The file of authorized keys of a user. -/
def keyFile (h : Host) (home : Path) : Path :=
  match h.sshPath with
  | some p => p
  | none => joinPath (joinPath home ".ssh".toList) "authorized_keys".toList

/-- Specification: a text with keys added. -/
def withKeys (old : List Char) : List (List Char) → List Char
  | [] => old
  | k :: r => withKeys (old ++ ("\n# These keys are installed by FIDO Device Onboarding\n".toList ++ k ++
      "\n# End of FIDO Device Onboarding keys\n".toList)) r

/-- Specification: between `w` and `w'`, the keys were added to the file of authorized keys of the user, which was empty if it
was not there; this file is now readable by the user only; other files are as they were. -/
structure Installed (h : Host) (user : List Char) (ks : List (List Char)) (w w' : World) : Prop where
  change : ∃ passwd uid gid home old,
    w.files "/etc/passwd".toList = some (utf8 passwd) ∧ Text.uidGidHome (some passwd) user = .ok (uid, gid, home) ∧
    (w.files (keyFile h home) = some (utf8 old) ∨ w.files (keyFile h home) = none ∧ old = []) ∧
    w'.files (keyFile h home) = some (utf8 (withKeys old ks)) ∧
    w'.mode (keyFile h home) = some 0o600 ∧ w'.owner (keyFile h home) = some (uid, gid) ∧
    ∀ q, q ≠ keyFile h home → w'.files q = w.files q

/-! ### Rules -/

variable {h : Host} {α β : Type} {P : World → Prop}

/-- If the program succeeds, then `Q`. -/
def Post (P : World → Prop) (p : Proc sig Err α) (Q : α → World → Prop) : Prop :=
  ∀ w t w' a, P w → Runs step w t w' → Prog.Ends p t (.ok a) → Q a w'

theorem post_bind {p : Proc sig Err α} {f : α → Proc sig Err β} {M : α → World → Prop} {Q : β → World → Prop}
    (hp : Post P p M) (hf : ∀ a, Post (M a) (f a) Q) : Post P (p >>= f : Proc sig Err β) Q := by
  intro w t w' b h0 hr he
  obtain ⟨a, t1, t2, rfl, h1, h2⟩ := Proc.ends_bind he
  obtain ⟨w1, r1, r2⟩ := runs_append hr
  exact hf a w1 t2 w' b (hp w t1 w1 a h0 r1 h1) r2 h2

theorem runs_nil {w w' : World} (hr : Runs step w [] w') : w' = w := by
  cases hr
  rfl

theorem runs_one {w w' : World} {d : sig.Deed} (hr : Runs step w [d] w') : step w d w' := by
  cases hr with
  | cons h ht =>
    rw [runs_nil ht]
    exact h

theorem post_pure {a : α} {Q : α → World → Prop} (hQ : ∀ w, P w → Q a w) : Post P (pure a : Proc sig Err α) Q := by
  intro w t w' b h0 hr he
  obtain ⟨rfl, rfl⟩ := Proc.ends_pure he
  rw [runs_nil hr]
  exact hQ w h0

theorem post_ask {m : SiModule} {op : Op} {Q : op.Ans → World → Prop}
    (hQ : ∀ w a w', P w → step w ⟨.host m op, a⟩ w' → Q a w') : Post P (ask m op) Q := by
  intro w t w' b h0 hr he
  obtain ⟨a, ha, rfl⟩ := Proc.ends_ask he
  have := Res.ok.inj ha
  subst this
  exact hQ w _ w' h0 (runs_one hr)

theorem post_must {m : SiModule} {a : Act} {Q : Unit → World → Prop} (hQ : ∀ w w', P w → Changes w a true w' → Q () w') :
    Post P (must m a) Q := by
  refine post_bind (M := fun (ok : Bool) w' => ∃ w, P w ∧ Changes w a ok w') (post_ask fun w ok w' h0 hs => ⟨w, h0, hs⟩) ?_
  intro ok w t w' b ⟨w0, h0, hs⟩ hr he
  obtain ⟨rfl, ht⟩ := Proc.ends_check he
  subst ht
  rw [runs_nil hr]
  exact hQ w0 w h0 hs

theorem post_conseq {p : Proc sig Err α} {P' : World → Prop} {Q Q' : α → World → Prop} (hp : Post P p Q) (h1 : ∀ w, P' w → P w)
    (h2 : ∀ a w, Q a w → Q' a w) : Post P' p Q' := fun w t w' a h0 hr he => h2 _ _ (hp w t w' a (h1 _ h0) hr he)

theorem post_lift {r : Res Err α} {Q : α → World → Prop} (hQ : ∀ a w, r = .ok a → P w → Q a w) : Post P (Proc.lift r) Q := by
  intro w t w' b h0 hr he
  obtain ⟨rfl, hr'⟩ := Proc.ends_lift he
  rw [runs_nil hr]
  exact hQ b w hr' h0

theorem post_when {b : Bool} {p : Proc sig Err Unit} {Q : Unit → World → Prop} (hp : Post P p Q) (hQ : ∀ w, P w → Q () w) :
    Post P (when b p) Q := by
  cases b
  · exact post_pure hQ
  · exact hp

/-! ### Installing keys -/

/-- The last letter of a joined path. -/
theorem joinPath_last {a b : Path} {x : Char} (hb : b.getLast? = some x) : (joinPath a b).getLast? = some x := by
  have hne : b ≠ [] := by
    rintro rfl
    cases hb
  unfold joinPath
  split
  · exact hb
  · split
    · exact hb
    · rw [List.getLast?_append_of_ne_nil _ hne, hb]
    · rw [List.getLast?_append_of_ne_nil _ (by simp), List.getLast?_cons_of_ne_nil hne, hb]

theorem keyFile_ne (home : Path) (hp : h.sshPath ≠ some "/etc/passwd".toList) : keyFile h home ≠ "/etc/passwd".toList := by
  unfold keyFile
  split
  · next p hs =>
    intro he
    rw [hs, he] at hp
    exact hp rfl
  · intro he
    have := joinPath_last (a := joinPath home ".ssh".toList) (b := "authorized_keys".toList) (x := 's') rfl
    rw [he] at this
    exact absurd this (by decide)

theorem users_ok {r : Res Text.PErr α} {a : α} (hr : users r = .ok a) : r = .ok a := by
  cases r with
  | ok b => cases hr; rfl
  | err e => cases hr
  | panic => cases hr

theorem uidGidHome_some {f : Option (List Char)} {user : List Char} {x : Nat × Nat × List Char} (hf : Text.uidGidHome f user = .ok x) :
    ∃ s, f = some s := by
  cases f with
  | none => cases hf
  | some s => exact ⟨s, rfl⟩

theorem installKey_post {user key : List Char} {w0 : World} (hp : h.sshPath ≠ some "/etc/passwd".toList) :
    Post (fun w => w = w0) (installKey h user key) fun _ w => Installed h user [key] w0 w := by
  unfold installKey
  refine post_bind (M := fun (f : Option (List Char)) w => w = w0 ∧ ∀ s, f = some s → w0.files "/etc/passwd".toList = some (utf8 s))
    (post_ask fun w a w' h0 hs => ?_) fun f => ?_
  · subst h0
    exact ⟨hs.1, hs.2⟩
  refine post_bind (M := fun x w => w = w0 ∧ ∃ passwd, w0.files "/etc/passwd".toList = some (utf8 passwd) ∧
    Text.uidGidHome (some passwd) user = .ok x) (post_lift fun x w hx ⟨h0, hf⟩ => ?_) ?_
  · have hx := users_ok hx
    obtain ⟨s, rfl⟩ := uidGidHome_some hx
    exact ⟨h0, s, hf s rfl, hx⟩
  rintro ⟨uid, gid, home⟩
  refine post_bind (M := fun path w => path = keyFile h home ∧ (∀ q, w.files q = w0.files q) ∧
      ∃ passwd, w0.files "/etc/passwd".toList = some (utf8 passwd) ∧ Text.uidGidHome (some passwd) user = .ok (uid, gid, home)) ?_ ?_
  · show Post _ (match h.sshPath with
      | some p => pure p
      | none => _ : Proc sig Err Path) _
    cases hs : h.sshPath with
    | some p =>
      refine post_pure fun w ⟨h0, hx⟩ => ⟨?_, fun q => by rw [h0], hx⟩
      unfold keyFile
      rw [hs]
    | none =>
      have dir : ∀ {m : SiModule} {a : Act} {R : Prop}, (∀ w w', Changes w a true w' → ∀ q, w'.files q = w.files q) →
          Post (fun w => (∀ q, w.files q = w0.files q) ∧ R) (must m a) fun _ w => (∀ q, w.files q = w0.files q) ∧ R :=
        fun ha => post_must fun w w' h0 hc => ⟨fun q => (ha w w' hc q).trans (h0.1 q), h0.2⟩
      have off : ∀ {p : Path} {w w' : World}, SameOff p w w' → w'.files p = w.files p → ∀ q, w'.files q = w.files q := by
        intro p w w' ho hf q
        by_cases hq : q = p
        · rw [hq]; exact hf
        · exact ho.files q hq
      refine post_bind (M := fun _ w => (∀ q, w.files q = w0.files q) ∧ ∃ passwd, w0.files "/etc/passwd".toList = some (utf8 passwd) ∧
          Text.uidGidHome (some passwd) user = .ok (uid, gid, home))
        (post_ask fun w a w' h0 hs => ⟨fun q => by rw [hs.1, h0.1], h0.2⟩) fun b => ?_
      refine post_bind (M := fun _ w => (∀ q, w.files q = w0.files q) ∧ ∃ passwd, w0.files "/etc/passwd".toList = some (utf8 passwd) ∧
          Text.uidGidHome (some passwd) user = .ok (uid, gid, home)) (post_when (post_bind (dir fun w w' hc q => ?_) fun _ =>
            post_bind (dir fun w w' hc q => ?_) fun _ => dir fun w w' hc q => ?_) fun w hw => hw) fun _ => ?_
      · have hc : w' = w := hc
        rw [hc]
      · exact off hc.1 (hc.2 rfl).1 q
      · exact off hc.1 (hc.2 rfl).1 q
      · refine post_pure fun w hw => ⟨?_, hw⟩
        unfold keyFile
        rw [hs]
  intro path
  refine post_bind (M := fun (b : Bool) w => path = keyFile h home ∧ (b = false → w0.files path = none) ∧ (∀ q, w.files q = w0.files q) ∧
      ∃ passwd, w0.files "/etc/passwd".toList = some (utf8 passwd) ∧ Text.uidGidHome (some passwd) user = .ok (uid, gid, home))
    (post_ask fun w b w' h0 hs => ?_) fun b => ?_
  · have hs : w' = w ∧ (w.files path ≠ none → b = true) := hs
    refine ⟨h0.1, fun hb => ?_, fun q => by rw [hs.1]; exact h0.2.1 q, h0.2.2⟩
    rw [← h0.2.1 path]
    by_contra hn
    exact absurd (hs.2 hn) (by rw [hb]; simp)
  refine post_bind (M := fun c w => path = keyFile h home ∧
      (w0.files path = some (utf8 c) ∨ w0.files path = none ∧ c = []) ∧ (∀ q, w.files q = w0.files q) ∧
      ∃ passwd, w0.files "/etc/passwd".toList = some (utf8 passwd) ∧ Text.uidGidHome (some passwd) user = .ok (uid, gid, home)) ?_ ?_
  · cases b with
    | false => exact post_pure fun w hw => ⟨hw.1, .inr ⟨hw.2.1 rfl, rfl⟩, hw.2.2⟩
    | true =>
      refine post_bind (M := fun (c : Option (List Char)) w => path = keyFile h home ∧ (∀ s, c = some s → w0.files path = some (utf8 s)) ∧
        (∀ q, w.files q = w0.files q) ∧ ∃ passwd, w0.files "/etc/passwd".toList = some (utf8 passwd) ∧
          Text.uidGidHome (some passwd) user = .ok (uid, gid, home)) (post_ask fun w c w' h0 hs => ?_) fun c => ?_
      · have hs : w' = w ∧ ∀ s, c = some s → w.files path = some (utf8 s) := hs
        refine ⟨h0.1, fun s hc => ?_, fun q => by rw [hs.1]; exact h0.2.2.1 q, h0.2.2.2⟩
        rw [← h0.2.2.1 path]
        exact hs.2 s hc
      · intro w t w' a h0 hr he
        have he : Prog.Ends (Proc.some? (S := sig) Err.io (c : Option (List Char))) t (.ok a) := he
        obtain ⟨ht, hc⟩ := Proc.ends_some? he
        subst ht
        rw [runs_nil hr]
        exact ⟨h0.1, .inl (h0.2.1 a hc), h0.2.2⟩
  intro c
  have off : ∀ {p : Path} {w w' : World}, SameOff p w w' → (∀ q, q ≠ p → w.files q = w0.files q) → ∀ q, q ≠ p → w'.files q = w0.files q :=
    fun ho hw q hq => (ho.files q hq).trans (hw q hq)
  refine post_bind (M := fun _ w => path = keyFile h home ∧
      (w0.files path = some (utf8 c) ∨ w0.files path = none ∧ c = []) ∧ (∀ q, q ≠ path → w.files q = w0.files q) ∧
      (∃ passwd, w0.files "/etc/passwd".toList = some (utf8 passwd) ∧ Text.uidGidHome (some passwd) user = .ok (uid, gid, home)) ∧
      w.files path = some []) (post_must fun w w' h0 hc =>
        ⟨h0.1, h0.2.1, off hc.1 fun q _ => h0.2.2.1 q, h0.2.2.2, hc.2 rfl⟩) fun _ => ?_
  refine post_bind (M := fun _ w => path = keyFile h home ∧
      (w0.files path = some (utf8 c) ∨ w0.files path = none ∧ c = []) ∧ (∀ q, q ≠ path → w.files q = w0.files q) ∧
      (∃ passwd, w0.files "/etc/passwd".toList = some (utf8 passwd) ∧ Text.uidGidHome (some passwd) user = .ok (uid, gid, home)) ∧
      w.files path = some (utf8 (keyBlock c key))) (post_must fun w w' h0 hc =>
        ⟨h0.1, h0.2.1, off hc.1 h0.2.2.1, h0.2.2.2.1, by rw [(hc.2 rfl).1, h0.2.2.2.2]; rfl⟩) fun _ => ?_
  refine post_bind (M := fun _ w => path = keyFile h home ∧
      (w0.files path = some (utf8 c) ∨ w0.files path = none ∧ c = []) ∧ (∀ q, q ≠ path → w.files q = w0.files q) ∧
      (∃ passwd, w0.files "/etc/passwd".toList = some (utf8 passwd) ∧ Text.uidGidHome (some passwd) user = .ok (uid, gid, home)) ∧
      w.files path = some (utf8 (keyBlock c key)) ∧ w.mode path = some 0o600) (post_must fun w w' h0 hc =>
        ⟨h0.1, h0.2.1, off hc.1 h0.2.2.1, h0.2.2.2.1, by rw [(hc.2 rfl).1]; exact h0.2.2.2.2, (hc.2 rfl).2.1⟩) fun _ => ?_
  refine post_must fun w w' h0 hc => ?_
  obtain ⟨rfl, g2, g3, ⟨passwd, g4, g5⟩, g6, g7⟩ := h0
  refine ⟨passwd, uid, gid, home, c, g4, g5, g2, ?_, ?_, (hc.2 rfl).2.2, off hc.1 g3⟩
  · rw [(hc.2 rfl).1, g6]
    unfold withKeys keyBlock withKeys
    simp
  · rw [(hc.2 rfl).2.1, g7]

theorem installed_trans {user : List Char} {a b : List (List Char)} {w0 w1 w2 : World} (hp : h.sshPath ≠ some "/etc/passwd".toList)
    (h1 : Installed h user a w0 w1) (h2 : Installed h user b w1 w2) : Installed h user (a ++ b) w0 w2 := by
  obtain ⟨passwd, uid, gid, home, old, e1, e2, e3, e4, e5, e6, e7⟩ := h1
  obtain ⟨passwd', uid', gid', home', old', f1, f2, f3, f4, f5, f6, f7⟩ := h2
  rw [e7 _ (keyFile_ne home hp).symm, e1] at f1
  have hpw := utf8_inj (Option.some.inj f1)
  subst hpw
  rw [e2] at f2
  cases f2
  rw [e4] at f3
  rcases f3 with f3 | ⟨f3, -⟩
  · have ho := utf8_inj (Option.some.inj f3)
    subst ho
    refine ⟨passwd, uid, gid, home, old, e1, e2, e3, ?_, f5, f6, fun q hq => (f7 q hq).trans (e7 q hq)⟩
    rw [f4]
    have : ∀ (a : List (List Char)) (o : List Char), withKeys (withKeys o a) b = withKeys o (a ++ b) := by
      intro a
      induction a with
      | nil => intro o; rfl
      | cons k a ih => intro o; exact ih _
    rw [this]
  · cases f3

theorem installKeys_post {user : List Char} (hp : h.sshPath ≠ some "/etc/passwd".toList) :
    ∀ (ks : List (List Char)) (w0 : World), ks ≠ [] →
    Post (fun w => w = w0) (installKeys h user ks) fun _ w => Installed h user ks w0 w
  | [], _, hne => absurd rfl hne
  | [k], w0, _ => post_bind (installKey_post hp) fun _ => post_pure fun w hw => hw
  | k :: k' :: r, w0, _ => by
    refine post_bind (installKey_post hp) fun _ => ?_
    intro w t w' a h0 hr he
    exact installed_trans hp h0 (installKeys_post hp (k' :: r) w (by simp) w t w' a rfl hr he)

/-- Anything but running a program. -/
def Quiet (d : sig.Deed) : Prop := ∀ m p a i o, d ≠ ⟨.host m (.run p a i), o⟩

/-- The effect does not run a program. -/
def NoRun (e : Eff) : Prop := ∀ m p a i, e ≠ .host m (.run p a i)

theorem only_noRun_ask {m : SiModule} {op : Op} (hop : ∀ p a i, op ≠ .run p a i) : Prog.Only NoRun (ask m op) :=
  Prog.only_act (fun m' p a i he => by cases he; exact hop _ _ _ rfl) fun _ => Prog.only_ret

theorem only_noRun_must {m : SiModule} {a : Act} : Prog.Only NoRun (must m a) :=
  only_bind (only_noRun_ask (by intro p a i h; cases h)) fun _ => only_check

theorem only_noRun_installKey {user key : List Char} : Prog.Only NoRun (installKey h user key) := by
  unfold installKey
  refine only_bind (only_noRun_ask (by intro p a i h; cases h)) fun _ => only_bind only_lift fun x => only_bind ?_ fun p =>
    only_bind (only_noRun_ask (by intro p a i h; cases h)) fun b => only_bind ?_ fun c => only_bind only_noRun_must fun _ =>
    only_bind only_noRun_must fun _ => only_bind only_noRun_must fun _ => only_noRun_must
  · split
    · exact only_pure
    · exact only_bind (only_noRun_ask (by intro p a i h; cases h)) fun _ => only_bind (only_when (only_bind only_noRun_must fun _ =>
        only_bind only_noRun_must fun _ => only_noRun_must)) fun _ => only_pure
  · exact only_ite (fun _ => only_bind (only_noRun_ask (by intro p a i h; cases h)) fun _ => only_some?) fun _ => only_pure

theorem only_noRun_installKeys {user : List Char} : ∀ ks, Prog.Only NoRun (installKeys h user ks)
  | [] => only_pure
  | _ :: r => only_bind only_noRun_installKey fun _ => only_noRun_installKeys r

theorem quiet_of_only {p : Proc sig Err α} {t : Trace sig} {r : Res Err α} (hp : Prog.Only NoRun p) (he : Prog.Ends p t r) :
    ∀ d ∈ t, Quiet d := by
  intro d hd m p a i o h
  have := hp t ⟨_, he⟩ d hd m p a i
  rw [h] at this
  exact this rfl

theorem installKeys_installed {user : List Char} (hp : h.sshPath ≠ some "/etc/passwd".toList) {ks : List (List Char)}
    (hne : ks ≠ []) {w w' : World} {t : Trace sig} (hr : Runs step w t w') (he : Prog.Ends (installKeys h user ks) t (.ok ())) :
    (∀ d ∈ t, Quiet d) ∧ Installed h user ks w w' :=
  ⟨quiet_of_only (only_noRun_installKeys ks) he, installKeys_post hp ks w hne w t w' () rfl hr he⟩

/-- Instructions to other modules leave the user alone. -/
theorem items_other : ∀ (l : List Item) (s s' : St) (t : Trace sig), (∀ x ∈ l, x.1 ≠ .sshKey) →
    Prog.Ends (items h s l) t (.ok s') → s'.user = s.user ∧ (.sshKey ∈ s'.active ↔ .sshKey ∈ s.active)
  | [], s, s', t, _, he => by
    obtain ⟨-, rfl⟩ := Proc.ends_pure he
    exact ⟨rfl, .rfl⟩
  | (m, k, v) :: r, s, s', t, hl, he => by
    rw [items_cons] at he
    obtain ⟨s1, t1, t2, rfl, h1, h2⟩ := Proc.ends_bind he
    have hm : m ≠ .sshKey := hl (m, k, v) (by simp)
    obtain ⟨e1, e2⟩ := items_other r s1 s' t2 (fun x hx => hl x (by simp [hx])) h2
    rw [e1, e2]
    by_cases hk : k = "active".toList
    · simp only [item, if_pos hk] at h1
      obtain ⟨b, t3, t4, -, -, h4⟩ := Proc.ends_bind h1
      obtain ⟨-, rfl⟩ := Proc.ends_pure h4
      refine ⟨rfl, ?_⟩
      cases b
      · simp only [Bool.false_eq_true, if_false, List.mem_filter, decide_eq_true_eq]
        exact ⟨fun h => h.1, fun h => ⟨h, fun e => hm e.symm⟩⟩
      · simp only [if_true, List.mem_cons]
        exact ⟨fun h => h.resolve_left fun e => hm e.symm, .inr⟩
    · by_cases ha : m ∈ s.active
      · simp only [item, if_neg hk, if_pos ha] at h1
        have := obey_apart h1
        rw [this.active]
        exact ⟨this.user hm, .rfl⟩
      · simp only [item, if_neg hk, if_neg ha] at h1
        exact absurd h1 fun h => Proc.ends_fail h

end Verif.SiClient

namespace Verif.SiPipeline
open Verif Verif.Types Verif.ServiceInfo Verif.Store Verif.SiClient

variable {h : SiClient.Host} {enc : Val → Bytes} {dec : Bytes → Option Val} {read : List Char → Option Bytes}
  {settings : SiApi.Settings} {o : SiApi.Oracle} {s : SiApi.Server} {token : Option (List Char)} {guid : Bytes}
  {mods : List SiModule} {version : List Char} {m : OwnerSi}

/-- The instructions for the user make this state. -/
theorem items_user {u : InitialUser} {t : Trace sig} {s : St} (he : Prog.Ends (items h {} (userItems u)) t (.ok s)) :
    s.user = userSt u ∧ .sshKey ∈ s.active := by
  have := leads_sound (leads_user (h := h) (user := []) u) t _ he
  have this : Calm true (userSt u) s := this
  exact ⟨this.ready.user, by simpa using this.key⟩

theorem ends_items_append {a b : List Item} {s s' : St} {t : Trace sig} (he : Prog.Ends (items h s (a ++ b)) t (.ok s')) :
    ∃ s1 t1 t2, t = t1 ++ t2 ∧ Prog.Ends (items h s a) t1 (.ok s1) ∧ Prog.Ends (items h s1 b) t2 (.ok s') := by
  induction a generalizing s t with
  | nil => exact ⟨s, [], t, rfl, .nil _, he⟩
  | cons x a ih =>
    rw [List.cons_append, items_cons] at he
    obtain ⟨s1, t1, t2, rfl, h1, h2⟩ := Proc.ends_bind he
    obtain ⟨s2, t3, t4, rfl, h3, h4⟩ := ih h2
    refine ⟨s2, t1 ++ t3, t4, by simp, ?_, h4⟩
    rw [items_cons]
    exact Prog.bind_steps (a := Res.ok s1) h1 h3

/-- The part of a reply for other modules than those with settings of their own. -/
theorem handler_other {c : SiApi.Config} {pd : Option (Option InitialUser)} {q : SiApi.Query} {r : ApiReply}
    (hx : SiApi.handler c pd q = some r) {x : SiModule} (h1 : x ≠ .binaryFile) (h2 : x ≠ .command) (h3 : x ≠ .diskEncryptionClevis)
    (hadd : ∀ y ∈ c.additional.getD [], y.1 ≠ x) : ∀ y ∈ r.extra.getD [], y.1 ≠ x := by
  unfold SiApi.handler at hx
  split at hx
  · cases hx
  · have hx := Option.some.inj hx
    have hh : Holds x (SiApi.additional q (c.additional.getD []) (SiApi.part q .diskEncryptionClevis
        (c.disks.map fun x => x.map SiApi.diskExtras) (SiApi.part q .command (c.commands.map fun x => x.map SiApi.commandExtras)
        (SiApi.part q .binaryFile (c.files.map fun x => x.map SiApi.fileExtras) {})))) [] := holds_additional (holds_part_other (holds_part_other (holds_part_other (holds_empty x)
      (.inl (Ne.symm h1))) (.inl (Ne.symm h2))) (.inl (Ne.symm h3))) hadd
    rw [← hx]
    intro y hy hyx
    have := hh.items
    rw [if_pos rfl, ofModule, List.filter_eq_nil_iff] at this
    exact this y hy (by simpa using hyx)

/-- The instructions for the user come first, and there are no others. -/
theorem user_split (hS : Setup h enc dec read settings o s token guid mods version m)
    (hadd : ∀ x ∈ settings.additional.getD [], x.1 ≠ .sshKey) : ∃ rest, siItems dec m.si =
      ((if .sshKey ∈ mods then userOf o settings guid else none).map userItems).getD [] ++ rest ∧ ∀ x ∈ rest, x.1 ≠ .sshKey := by
  obtain ⟨rep, l, ms, hl, hr, hx, -, hms⟩ := setup_items hS
  obtain ⟨c1, c2, c3, c4, c5, c6⟩ := config_of hS.config
  obtain ⟨l', rfl, hl'⟩ := replyItems_some hr
  have hrep : rep.user = if .sshKey ∈ mods then userOf o settings guid else none := by
    have hx' := hx
    unfold SiApi.handler at hx'
    rw [if_neg (by simp)] at hx'
    rw [← Option.some.inj hx']
    show SiApi.userFor _ _ _ = _
    unfold SiApi.userFor userOf
    have hm : SiModule.sshKey ∈ ms ↔ .sshKey ∈ mods := hms _ (by intro s hs; cases hs)
    by_cases hin : SiModule.sshKey ∈ mods
    · rw [if_pos (show SiModule.sshKey ∈ (SiApi.Query.mk 1 guid ms).modules from hm.2 hin), if_pos hin, c1]
      cases o.perDevice guid <;> rfl
    · rw [if_neg (fun h => hin (hm.1 h)), if_neg hin]
  refine ⟨l' ++ (rep.reboot.map rebootItems).getD [], ?_, ?_⟩
  · rw [hl, hrep, List.append_assoc]
  · intro x hx'
    rcases List.mem_append.1 hx' with hx' | hx'
    · exact extraItems_modules (P := fun y => y ≠ .sshKey) hl' (handler_other hx (by decide) (by decide) (by decide)
        (by rw [c4]; exact hadd)) x hx'
    · rw [rebootPart_module x hx']
      decide

/-- What is set up for the user when processing succeeds: all else is done before, except for subscriptions. -/
theorem user_set_up (hS : Setup h enc dec read settings o s token guid mods version m)
    (hadd : ∀ x ∈ settings.additional.getD [], x.1 ≠ .sshKey) (hm : .sshKey ∈ mods) {u : InitialUser}
    (hu : userOf o settings guid = some u) {t : Trace sig} {r : Bool × List Item}
    (he : Prog.Ends (process h (siItems dec m.si)) t (.ok r)) : ∃ t1 t2 t3, t = t1 ++ t2 ++ t3 ∧
    Prog.Ends (setUpUser h (userSt u)) t2 (.ok ()) ∧ (∀ d ∈ t3, By .subscriptionManager d.1) := by
  obtain ⟨rest, hl, hother⟩ := user_split hS hadd
  rw [hl, if_pos hm, hu] at he
  obtain ⟨s2, t1, t2, rfl, h1, h2⟩ := Proc.ends_bind he
  obtain ⟨s1, t3, t4, rfl, h3, h4⟩ := ends_items_append h1
  obtain ⟨e1, e2⟩ := items_user h3
  obtain ⟨e3, e4⟩ := items_other _ _ _ _ hother h4
  unfold finish at h2
  obtain ⟨_, t5, t6, rfl, h5, h6⟩ := Proc.ends_bind h2
  obtain ⟨_, t7, t8, rfl, h7, h8⟩ := Proc.ends_bind h6
  obtain ⟨rfl, -⟩ := Proc.ends_pure h8
  have hc : s2.active.contains .sshKey = true := by
    simpa using e4.2 e2
  rw [hc] at h5
  have h5 : Prog.Ends (setUpUser h s2.user) t5 (.ok ()) := h5
  rw [e3, e1] at h5
  refine ⟨t3 ++ t4, t5, t7, by simp, h5, ?_⟩
  intro d hd
  exact only_when (only_rhsm (r := s2.rhsm)) t7 ⟨_, h7⟩ d hd

/-- **C52**: the keys configured for the user of a device are installed one by one, in their order and unchanged, whatever
happens on the device before: in the phase `t2`, which follows all other work except for subscriptions and in which no
program runs, they are added to the user's file of authorized keys. There must be keys, and none may contain a semicolon. -/
theorem C52_keys_partial (hS : Setup h enc dec read settings o s token guid mods version m)
    (hadd : ∀ x ∈ settings.additional.getD [], x.1 ≠ .sshKey) (hm : .sshKey ∈ mods) {u : InitialUser}
    (hu : userOf o settings guid = some u) {ks : List (List Char)} (hk : u.sshKeys = some ks) (hne : ks ≠ [])
    (hsep : ∀ k ∈ ks, ';' ∉ k) (hp : h.sshPath ≠ some "/etc/passwd".toList) {t : Trace sig} {r : Bool × List Item}
    (he : Prog.Ends (process h (siItems dec m.si)) t (.ok r)) {w w' : World} (hw : Runs step w t w') :
    ∃ t1 t2 t3 w1 w2, t = t1 ++ t2 ++ t3 ∧ Runs step w t1 w1 ∧ Runs step w1 t2 w2 ∧ Runs step w2 t3 w' ∧
      (∀ d ∈ t2, SiClient.Quiet d) ∧ (∀ d ∈ t3, By .subscriptionManager d.1) ∧ Installed h u.username ks w1 w2 := by
  obtain ⟨t1, t2, t3, rfl, h2, h3⟩ := user_set_up hS hadd hm hu he
  obtain ⟨w2, hr12, hr3⟩ := runs_append hw
  unfold setUpUser at h2
  obtain ⟨user, t4, t5, rfl, h4, h5⟩ := Proc.ends_bind h2
  obtain ⟨rfl, hus⟩ := Proc.ends_some? h4
  obtain ⟨_, t6, t7, rfl, h6, h7⟩ := Proc.ends_bind h5
  obtain ⟨_, t8, t9, rfl, h8, h9⟩ := Proc.ends_bind h7
  have hks : (userSt u).keys = some (joinWith [';'] ks) := by
    unfold userSt
    rw [hk]
    rfl
  rw [hks] at h9
  obtain ⟨_, ta, tb, rfl, ha, hb⟩ := Proc.ends_bind h9
  rw [splitAll_join hne hsep] at hb
  have hus : user = u.username := (Option.some.inj hus).symm
  subst hus
  rw [show t1 ++ ([] ++ (t6 ++ (t8 ++ (ta ++ tb)))) = (t1 ++ t6 ++ t8 ++ ta) ++ tb by simp] at hr12 ⊢
  obtain ⟨w1, hr1, hr2⟩ := runs_append hr12
  have := installKeys_installed hp hne hr2 hb
  exact ⟨_, tb, t3, w1, w2, rfl, hr1, hr2, hr3, this.1, h3, this.2⟩

/-! ### Users -/

/-- The module for users ran this program with this result. -/
def Executed (t : Trace sig) (prog : List Char) (args : List (List Char)) (input : Option (List Char)) (out : Output) : Prop :=
  (⟨.host .sshKey (.run prog args input), (some out : Option Output)⟩ : sig.Deed) ∈ t

theorem Executed.mono {t t' : Trace sig} {prog : List Char} {args : List (List Char)} {input : Option (List Char)} {out : Output}
    (hr : Executed t prog args input out) (ht : t ⊆ t') : Executed t' prog args input out := ht hr

/-- The user was found in the user database. -/
def Found (t : Trace sig) (user : List Char) : Prop :=
  ∃ f fs, (⟨.host .sshKey .passwd, (some f : Option (List Char))⟩ : sig.Deed) ∈ t ∧ Text.RecordOf f user fs

/-- The password given to `useradd`: as configured if it is encrypted, otherwise what `openssl` makes of it. -/
def Hashed (h : SiClient.Host) (t : Trace sig) (p pw : List Char) : Prop :=
  (("$2b$".toList <+: p ∨ "$6$".toList <+: p ∨ "$5$".toList <+: p) ∧ pw = p) ∨
  ∃ out s, Executed t "openssl".toList ["passwd".toList, "-6".toList, "-stdin".toList] (some p) out ∧ utf8 s = out.stdout ∧ pw = h.trimEnd s

theorem userExists_ends {user : List Char} {t : Trace sig} {b : Bool} (he : Prog.Ends (userExists user) t (.ok b)) :
    b = true → Found t user := by
  rintro rfl
  unfold userExists at he
  obtain ⟨f, t1, t2, rfl, h1, h2⟩ := Proc.ends_bind he
  obtain ⟨a, ha, rfl⟩ := Proc.ends_ask h1
  cases ha
  obtain ⟨rfl, h3⟩ := Proc.ends_lift h2
  have key : ∀ f : Option (List Char), users (Text.isUser f user) = .ok true → ∃ s fs, f = some s ∧ Text.RecordOf s user fs := by
    intro f hf
    cases f with
    | none => cases hf
    | some s =>
      rcases Text.record_or_none s user with ⟨fs, h⟩ | h
      · exact ⟨s, fs, rfl, h⟩
      · rw [(Text.C60_exists s user).2 h] at hf
        cases hf
  obtain ⟨s, fs, rfl, hr⟩ := key f h3
  exact ⟨s, fs, by simp, hr⟩

theorem run_ends {m : SiModule} {prog : List Char} {args : List (List Char)} {input : Option (List Char)} {t : Trace sig}
    {out : Output} (he : Prog.Ends (run m prog args input) t (.ok out)) :
    t = [⟨.host m (.run prog args input), (some out : Option Output)⟩] := by
  obtain ⟨f, t1, t2, rfl, h1, h2⟩ := Proc.ends_bind he
  obtain ⟨a, ha, rfl⟩ := Proc.ends_ask h1
  cases ha
  obtain ⟨rfl, h3⟩ := Proc.ends_some? h2
  have h3 : f = some out := h3
  rw [h3]
  rfl

theorem createUser_ends {user : List Char} {t : Trace sig} (he : Prog.Ends (createUser user) t (.ok ())) :
    Found t user ∨ ∃ out, Executed t "useradd".toList ["-m".toList, user] none out ∧ out.code = some 0 := by
  unfold createUser at he
  obtain ⟨b, t1, t2, rfl, h1, h2⟩ := Proc.ends_bind he
  have h3 := userExists_ends h1
  cases b with
  | true =>
    obtain ⟨f, fs, hf, hr⟩ := h3 rfl
    exact .inl ⟨f, fs, by simp [hf], hr⟩
  | false =>
    have h2 : Prog.Ends (run .sshKey "useradd".toList ["-m".toList, user] none >>= fun o => Proc.check .failed o.success :
      Proc sig SiClient.Err Unit) t2 (.ok ()) := h2
    obtain ⟨out, t3, t4, rfl, h4, h5⟩ := Proc.ends_bind h2
    obtain ⟨rfl, h6⟩ := Proc.ends_check h5
    refine .inr ⟨out, ?_, by simpa [Output.success] using h6⟩
    unfold Executed
    rw [run_ends h4]
    simp

theorem createUserWithPassword_ends {user p : List Char} {t : Trace sig}
    (he : Prog.Ends (createUserWithPassword h user p) t (.ok ())) :
    Found t user ∨ ∃ pw out, Executed t "useradd".toList ["-p".toList, pw, user] none out ∧ out.code = some 0 ∧ Hashed h t p pw := by
  unfold createUserWithPassword at he
  obtain ⟨b, t1, t2, rfl, h1, h2⟩ := Proc.ends_bind he
  have h3 := userExists_ends h1
  cases b with
  | true =>
    obtain ⟨f, fs, hf, hr⟩ := h3 rfl
    exact .inl ⟨f, fs, by simp [hf], hr⟩
  | false =>
    have h2 : Prog.Ends (encrypt h p >>= fun pw => run .sshKey "useradd".toList ["-p".toList, pw, user] none >>=
      fun o => Proc.check .failed o.success : Proc sig SiClient.Err Unit) t2 (.ok ()) := h2
    obtain ⟨pw, t3, t4, rfl, h4, h5⟩ := Proc.ends_bind h2
    obtain ⟨out, t5, t6, rfl, h6, h7⟩ := Proc.ends_bind h5
    obtain ⟨rfl, h8⟩ := Proc.ends_check h7
    refine .inr ⟨pw, out, ?_, by simpa [Output.success] using h8, ?_⟩
    · unfold Executed
      rw [run_ends h6]
      simp
    · unfold encrypt at h4
      by_cases hp : encrypted p = true
      · rw [if_pos hp] at h4
        obtain ⟨rfl, rfl⟩ := Proc.ends_pure h4
        left
        simp only [encrypted, Bool.or_eq_true, List.isPrefixOf_iff_prefix, or_assoc] at hp
        exact ⟨hp, rfl⟩
      · rw [if_neg hp] at h4
        obtain ⟨o, t7, t8, rfl, h9, h10⟩ := Proc.ends_bind h4
        right
        split at h10
        · cases (Proc.ends_lift h10).2
        · next x hx =>
          obtain ⟨rfl, rfl⟩ := Proc.ends_pure h10
          refine ⟨o, x.toList, ?_, ?_, rfl⟩
          · unfold Executed
            rw [run_ends h9]
            simp
          · unfold utf8
            unfold String.fromUTF8? at hx
            split at hx
            · cases hx
              rw [String.ofList_toList, Utf8.toList_eq]
              rfl
            · cases hx

/-- **C70**: when a device has processed its instructions, the user configured for it was found in the user database of the
device or was created by `useradd`, with the configured password if there is one: as it is if it is encrypted, and otherwise
as `openssl` encrypts it. (Missing: the exit status of `openssl`, and the password of a user who exists.) -/
theorem C70_created_partial (hS : Setup h enc dec read settings o s token guid mods version m)
    (hadd : ∀ x ∈ settings.additional.getD [], x.1 ≠ .sshKey) (hm : .sshKey ∈ mods) {u : InitialUser}
    (hu : userOf o settings guid = some u) {t : Trace sig} {r : Bool × List Item}
    (he : Prog.Ends (process h (siItems dec m.si)) t (.ok r)) :
    Found t u.username ∨
    match u.password with
    | some p => ∃ pw out, Executed t "useradd".toList ["-p".toList, pw, u.username] none out ∧ out.code = some 0 ∧ Hashed h t p pw
    | none => ∃ out, Executed t "useradd".toList ["-m".toList, u.username] none out ∧ out.code = some 0 := by
  obtain ⟨t1, t2, t3, rfl, h2, -⟩ := user_set_up hS hadd hm hu he
  unfold setUpUser at h2
  obtain ⟨user, t4, t5, rfl, h4, h5⟩ := Proc.ends_bind h2
  obtain ⟨rfl, hus⟩ := Proc.ends_some? h4
  obtain ⟨_, t6, t7, rfl, h6, h7⟩ := Proc.ends_bind h5
  obtain ⟨_, t8, t9, rfl, h8, h9⟩ := Proc.ends_bind h7
  obtain ⟨rfl, hb⟩ := Proc.ends_check h6
  have hus : user = u.username := (Option.some.inj hus).symm
  subst hus
  cases hp : u.password with
  | some p =>
    have hp' : (userSt u).password = some p := hp
    rw [hp'] at h8
    have h8 : Prog.Ends (createUserWithPassword h u.username p) t8 (.ok ()) := h8
    rcases createUserWithPassword_ends h8 with ⟨f, fs, hf, hr⟩ | ⟨pw, out, hr, hc, hh⟩
    · exact .inl ⟨f, fs, by simp [hf], hr⟩
    · refine .inr ⟨pw, out, ?_, hc, ?_⟩
      · exact hr.mono (fun d hd => by simp [hd])
      · rcases hh with hh | ⟨o, x, ho, hx⟩
        · exact .inl hh
        · refine .inr ⟨o, x, ?_, hx⟩
          exact ho.mono (fun d hd => by simp [hd])
  | none =>
    have hp' : (userSt u).password = none := hp
    cases hk : (userSt u).keys with
    | none =>
      rw [hp', hk] at hb
      cases hb
    | some ks =>
      rw [hk] at h9
      obtain ⟨_, ta, tb, rfl, ha, hb⟩ := Proc.ends_bind h9
      rcases createUser_ends ha with ⟨f, fs, hf, hr⟩ | ⟨out, hr, hc⟩
      · exact .inl ⟨f, fs, by simp [hf], hr⟩
      · refine .inr ⟨out, ?_, hc⟩
        exact hr.mono (fun d hd => by simp [hd])

/-- Programs are only run for this user. -/
def For (u : InitialUser) (e : Eff) : Prop :=
  ∀ prog args input, e = .host .sshKey (.run prog args input) →
    (prog = "useradd".toList ∧ args.getLast? = some u.username) ∨
    (prog = "openssl".toList ∧ ∃ p, u.password = some p ∧ input = some p)

theorem only_for_ask {u : InitialUser} {op : Op} (hop : ∀ p a i, op ≠ .run p a i) : Prog.Only (For u) (ask .sshKey op) :=
  Prog.only_act (fun p a i he => by cases he; exact absurd rfl (hop _ _ _)) fun _ => Prog.only_ret

theorem only_for_noRun {α : Type} {u : InitialUser} {p : Proc sig SiClient.Err α} (hp : Prog.Only NoRun p) : Prog.Only (For u) p := by
  intro t ht d hd prog args input he
  exact absurd he (hp t ht d hd _ _ _ _)

theorem only_for_run {u : InitialUser} {prog : List Char} {args : List (List Char)} {input : Option (List Char)}
    (hu : (prog = "useradd".toList ∧ args.getLast? = some u.username) ∨
      (prog = "openssl".toList ∧ ∃ p, u.password = some p ∧ input = some p)) : Prog.Only (For u) (run .sshKey prog args input) :=
  only_bind (Prog.only_act (fun p a i he => by cases he; exact hu) fun _ => Prog.only_ret) fun _ => only_some?

theorem only_for_exists {u : InitialUser} {x : List Char} : Prog.Only (For u) (userExists x) :=
  only_bind (only_for_ask (by intro p a i h; cases h)) fun _ => only_lift

theorem only_for_create {u : InitialUser} : Prog.Only (For u) (createUser u.username) :=
  only_bind only_for_exists fun _ => only_ite (fun _ => only_pure) fun _ => only_bind (only_for_run (.inl ⟨rfl, rfl⟩)) fun _ => only_check

theorem only_for_password {u : InitialUser} {p : List Char} (hp : u.password = some p) :
    Prog.Only (For u) (createUserWithPassword h u.username p) := by
  refine only_bind only_for_exists fun _ => only_ite (fun _ => only_pure) fun _ => only_bind ?_ fun _ =>
    only_bind (only_for_run (.inl ⟨rfl, rfl⟩)) fun _ => only_check
  refine only_ite (fun _ => only_pure) fun _ => only_bind (only_for_run (.inr ⟨rfl, p, hp, rfl⟩)) fun o => ?_
  split
  · exact only_lift
  · exact only_pure

theorem only_for_setUp {u : InitialUser} : Prog.Only (For u) (setUpUser h (userSt u)) := by
  unfold setUpUser
  have key : ∀ (user : List Char), user = u.username → ∀ (pw keys : Option (List Char)), pw = u.password → Prog.Only (For u) (do
      Proc.check .missing (keys.isSome || pw.isSome)
      (match pw with
        | some p => createUserWithPassword h user p
        | none => pure ())
      match keys with
      | some ks => do
        createUser user
        installKeys h user (Text.splitAll ';' ks)
      | none => pure () : Proc sig SiClient.Err Unit) := by
    rintro user rfl pw keys hpw
    refine only_bind only_check fun _ => only_bind ?_ fun _ => ?_
    · cases pw with
      | none => exact only_pure
      | some p => exact only_for_password hpw.symm
    · cases keys with
      | none => exact only_pure
      | some ks => exact only_bind only_for_create fun _ => only_for_noRun (only_noRun_installKeys _)
  exact key _ rfl _ _ rfl

theorem only_items {l : List Item} : ∀ {s : St}, Prog.Only (fun e => ¬By .sshKey e) (items h s l) := by
  induction l with
  | nil => exact only_pure
  | cons x l ih =>
    intro s
    rw [items_cons]
    refine only_bind ?_ fun _ => ih
    obtain ⟨mo, k, v⟩ := x
    simp only [item]
    refine only_ite (fun _ => only_bind only_some? fun _ => only_pure) fun _ => only_ite (fun _ => ?_) fun _ => only_fail
    by_cases hm : mo = .sshKey
    · subst hm
      intro t ht d hd
      exact (only_obey_none (by decide) t ht d hd).elim
    · intro t ht d hd
      obtain ⟨op, ho⟩ := only_obey t ht d hd
      rintro ⟨op', ho'⟩
      rw [ho] at ho'
      cases ho'
      exact hm rfl

/-- **C70**, the other way round: users are only created, and passwords only encrypted, as configured for this device, also
if processing fails or is cut off at any point; and nothing is done for users if there is none. -/
theorem C70_only (hS : Setup h enc dec read settings o s token guid mods version m)
    (hadd : ∀ x ∈ settings.additional.getD [], x.1 ≠ .sshKey) {t : Trace sig} (hd : Prog.Does (process h (siItems dec m.si)) t) :
    ∀ d ∈ t, By .sshKey d.1 → .sshKey ∈ mods ∧ ∃ u, userOf o settings guid = some u ∧
      ∀ prog args input, d.1 = .host .sshKey (.run prog args input) →
        (prog = "useradd".toList ∧ args.getLast? = some u.username) ∨
        (prog = "openssl".toList ∧ ∃ p, u.password = some p ∧ input = some p) := by
  obtain ⟨rest, hl, hother⟩ := user_split hS hadd
  intro d hdt hby
  have hC := C49_only_active _ t hd d hdt
  rw [hl] at hd
  have hu : ∃ u, (if .sshKey ∈ mods then userOf o settings guid else none) = some u := by
    cases hx : (if .sshKey ∈ mods then userOf o settings guid else none) with
    | some u => exact ⟨u, rfl⟩
    | none =>
      rw [hl, hx] at hC
      obtain ⟨mo, op, h1, -, ⟨a, x, b, h2, h3, -⟩, -⟩ := hC
      obtain ⟨op', h4⟩ := hby
      rw [h1] at h4
      cases h4
      refine absurd h3 (hother x ?_)
      have h2 : rest = a ++ x :: b := h2
      rw [h2]
      simp
  obtain ⟨u, hu⟩ := hu
  rw [hu] at hd
  have hin : SiModule.sshKey ∈ mods := by
    by_contra hc
    rw [if_neg hc] at hu
    cases hu
  rw [if_pos hin] at hu
  refine ⟨hin, u, hu, ?_⟩
  rcases Proc.does_bind hd with h1 | ⟨s2, t1, t2, rfl, h1, h2⟩
  · exact absurd hby (only_items t h1 d hdt)
  · rcases List.mem_append.1 hdt with hdt1 | hdt2
    · exact absurd hby (only_items t1 ⟨_, h1⟩ d hdt1)
    · obtain ⟨s1, t3, t4, rfl, h3, h4⟩ := ends_items_append h1
      obtain ⟨e1, e2⟩ := items_user h3
      obtain ⟨e3, e4⟩ := items_other _ _ _ _ hother h4
      have hfin : Prog.Only (fun e => For u e ∨ By .subscriptionManager e) (finish h s2) := by
        refine only_bind (only_when ?_) fun _ => only_bind (only_when ?_) fun _ => only_pure
        · rw [e3, e1]
          exact fun t ht d hd => .inl (only_for_setUp t ht d hd)
        · exact fun t ht d hd => .inr (only_rhsm t ht d hd)
      rcases hfin t2 h2 d hdt2 with h5 | ⟨op, h5⟩
      · exact h5
      · obtain ⟨op', h6⟩ := hby
        rw [h5] at h6
        cases h6

/-! ### Cases -/

namespace Toy

/-- A device on which `openssl` ends and prints as given, other programs and changes succeed, and there is only root. -/
def answer2 (openssl : Output) : (op : Op) → op.Ans
  | .does _ => (true : Bool)
  | .exists? _ => (false : Bool)
  | .readText _ => (some [] : Option (List Char))
  | .passwd => (some "root:x:0:0::/root:/bin/sh".toList : Option (List Char))
  | .run p _ _ => (some (if p = "openssl".toList then openssl else ⟨some 0, [], []⟩) : Option Output)
  | .osRelease => (some none : Option (Option (List Char)))

/-- Its surroundings. -/
def env2 (openssl : Output) : Unit → (e : Eff) → Unit × e.Ans
  | _, .host _ op => ((), answer2 openssl op)
  | _, .exchange _ => ((), (none : Option OwnerSi))

/-- What it does. -/
def trace2 (openssl : Output) (l : List Item) : Trace sig :=
  Prog.doings (S := sig) (env2 openssl) () (process SiClient.Toy.host l)

/-- Whether it succeeds. -/
def good2 (openssl : Output) (l : List Item) : Bool :=
  match (Prog.exec (S := sig) (env2 openssl) () (process SiClient.Toy.host l)).2 with
  | .ok _ => true
  | _ => false

theorem ends2 {openssl : Output} {l : List Item} (hg : good2 openssl l = true) :
    ∃ r, Prog.Ends (process SiClient.Toy.host l) (trace2 openssl l) (.ok r) := by
  have := Prog.exec_ends (S := sig) (env2 openssl) () (process SiClient.Toy.host l)
  unfold good2 at hg
  split at hg
  · next r hr =>
    rw [hr] at this
    exact ⟨r, this⟩
  · cases hg

/-- Settings with only a user. -/
def only (u : InitialUser) : SiApi.Settings := ⟨some u, none, none, none, none, none⟩

/-- The programs run for users, and the outcome. -/
def programs (t : Trace sig) : List (List Char × List (List Char) × Option (List Char) × Option (Option Int)) :=
  (SiClient.ran .sshKey t).map fun x => (x.prog, x.args, x.input, x.output.map (·.code))

/-- The texts written to files for users. -/
def written (t : Trace sig) : List Bytes :=
  (SiClient.acts .sshKey t).filterMap fun
    | (.append _ b, true) => some b
    | _ => none

end Toy

/-- A case as in `C70_created_partial`: a user with a password in the clear is created as `openssl` says. -/
example : Toy.good2 ⟨some 0, utf8 "$6$x".toList, []⟩ (Toy.told (Toy.only ⟨"bob".toList, some "pw".toList, none⟩)) = true ∧
    Toy.programs (Toy.trace2 ⟨some 0, utf8 "$6$x".toList, []⟩ (Toy.told (Toy.only ⟨"bob".toList, some "pw".toList, none⟩))) =
      [("openssl".toList, ["passwd".toList, "-6".toList, "-stdin".toList], some "pw".toList, some (some 0)),
       ("useradd".toList, ["-p".toList, "$6$x".toList, "bob".toList], none, some (some 0))] := by
  decide +kernel

/-- A case as in `C52_keys_partial`: two keys are added for an existing user. -/
example : Toy.good2 ⟨some 0, [], []⟩ (Toy.told (Toy.only ⟨"root".toList, none, some ["k1".toList, "k2".toList]⟩)) = true ∧
    (Toy.written (Toy.trace2 ⟨some 0, [], []⟩ (Toy.told (Toy.only ⟨"root".toList, none, some ["k1".toList, "k2".toList]⟩)))).length = 2 ∧
    userOf SiApi.Toy.oracle (Toy.only ⟨"root".toList, none, some ["k1".toList, "k2".toList]⟩) Toy.guid =
      some ⟨"root".toList, none, some ["k1".toList, "k2".toList]⟩ := by
  refine ⟨by decide +kernel, by decide +kernel, rfl⟩

/-- The theorems apply to these settings. -/
example : ∃ enc dec m, Setup SiClient.Toy.host enc dec Toy.read (Toy.only ⟨"root".toList, none, some ["k1".toList, "k2".toList]⟩)
    SiApi.Toy.oracle (Toy.server (Toy.only ⟨"root".toList, none, some ["k1".toList, "k2".toList]⟩)) (some "s".toList) Toy.guid Toy.mods
    "toy".toList m :=
  let ⟨enc, dec, m, hS, _⟩ := Toy.setup _ (by decide +kernel) (by decide +kernel)
  ⟨enc, dec, m, hS⟩

/-- **C52** is violated for keys with a semicolon, as may be in a comment or in options: this key is not written as a whole,
but its two parts are installed as keys. -/
theorem C52_separator_violated : ∃ h enc dec read settings o s token guid mods version m t r u,
    Setup h enc dec read settings o s token guid mods version m ∧ settings.additional = none ∧ .sshKey ∈ mods ∧
    userOf o settings guid = some u ∧ u.sshKeys = some ["ssh-rsa a;b".toList] ∧
    Prog.Ends (process h (siItems dec m.si)) t (.ok r) ∧
    Toy.written t = [utf8 (withKeys [] ["ssh-rsa a".toList]), utf8 (withKeys [] ["b".toList])] := by
  obtain ⟨enc, dec, m, hS, hl⟩ := Toy.setup (Toy.only ⟨"root".toList, none, some ["ssh-rsa a;b".toList]⟩)
    (by decide +kernel) (by decide +kernel)
  obtain ⟨r, hr⟩ := Toy.ends2 (openssl := ⟨some 0, [], []⟩) (l := Toy.told (Toy.only ⟨"root".toList, none, some ["ssh-rsa a;b".toList]⟩))
    (by decide +kernel)
  rw [← hl] at hr
  refine ⟨_, enc, dec, _, _, _, _, _, _, _, _, m, _, r, _, hS, rfl, by decide, rfl, rfl, hr, ?_⟩
  rw [hl]
  decide +kernel

/-- **C52** is violated for an empty list of keys: a block with an empty key is installed. -/
theorem C52_empty_violated : ∃ h enc dec read settings o s token guid mods version m t r u,
    Setup h enc dec read settings o s token guid mods version m ∧ settings.additional = none ∧ .sshKey ∈ mods ∧
    userOf o settings guid = some u ∧ u.sshKeys = some [] ∧
    Prog.Ends (process h (siItems dec m.si)) t (.ok r) ∧ Toy.written t = [utf8 (withKeys [] [[]])] := by
  obtain ⟨enc, dec, m, hS, hl⟩ := Toy.setup (Toy.only ⟨"root".toList, none, some []⟩)
    (by decide +kernel) (by decide +kernel)
  obtain ⟨r, hr⟩ := Toy.ends2 (openssl := ⟨some 0, [], []⟩) (l := Toy.told (Toy.only ⟨"root".toList, none, some []⟩))
    (by decide +kernel)
  rw [← hl] at hr
  refine ⟨_, enc, dec, _, _, _, _, _, _, _, _, m, _, r, _, hS, rfl, by decide, rfl, rfl, hr, ?_⟩
  rw [hl]
  decide +kernel

/-- **C70** is violated if `openssl` fails: the exit status is ignored and the user is created with an empty password. -/
theorem C70_openssl_violated : ∃ h enc dec read settings o s token guid mods version m t r u,
    Setup h enc dec read settings o s token guid mods version m ∧ settings.additional = none ∧ .sshKey ∈ mods ∧
    userOf o settings guid = some u ∧ u.username = "bob".toList ∧ u.password = some "pw".toList ∧
    Prog.Ends (process h (siItems dec m.si)) t (.ok r) ∧
    Toy.programs t = [("openssl".toList, ["passwd".toList, "-6".toList, "-stdin".toList], some "pw".toList, some (some 1)),
      ("useradd".toList, ["-p".toList, [], "bob".toList], none, some (some 0))] := by
  obtain ⟨enc, dec, m, hS, hl⟩ := Toy.setup (Toy.only ⟨"bob".toList, some "pw".toList, none⟩)
    (by decide +kernel) (by decide +kernel)
  obtain ⟨r, hr⟩ := Toy.ends2 (openssl := ⟨some 1, [], []⟩) (l := Toy.told (Toy.only ⟨"bob".toList, some "pw".toList, none⟩))
    (by decide +kernel)
  rw [← hl] at hr
  refine ⟨_, enc, dec, _, _, _, _, _, _, _, _, m, _, r, _, hS, rfl, by decide, rfl, rfl, rfl, hr, ?_⟩
  rw [hl]
  decide +kernel

/-- **C70** is violated for a user who exists: the configured password is dropped silently. -/
theorem C70_existing_violated : ∃ h enc dec read settings o s token guid mods version m t r u,
    Setup h enc dec read settings o s token guid mods version m ∧ settings.additional = none ∧ .sshKey ∈ mods ∧
    userOf o settings guid = some u ∧ u.password = some "pw".toList ∧
    Prog.Ends (process h (siItems dec m.si)) t (.ok r) ∧ Toy.programs t = [] ∧ SiClient.acts .sshKey t = [] := by
  obtain ⟨enc, dec, m, hS, hl⟩ := Toy.setup (Toy.only ⟨"root".toList, some "pw".toList, none⟩)
    (by decide +kernel) (by decide +kernel)
  obtain ⟨r, hr⟩ := Toy.ends2 (openssl := ⟨some 0, [], []⟩) (l := Toy.told (Toy.only ⟨"root".toList, some "pw".toList, none⟩))
    (by decide +kernel)
  rw [← hl] at hr
  refine ⟨_, enc, dec, _, _, _, _, _, _, _, _, m, _, r, _, hS, rfl, by decide, rfl, rfl, hr, ?_, ?_⟩
  · rw [hl]
    decide +kernel
  · rw [hl]
    decide +kernel

end Verif.SiPipeline
