import Verif.Model.Credential
/-!
Device credentials: TPM signatures (C55), locations and deactivation (C61), interrupted deactivation (C65).
-/
namespace Verif.Credential
open Verif Verif.Fs

/-! ### C55 -/

/-- The number a big-endian string stands for, by weights: an independent reading of `beNat`. -/
def number : Bytes → Nat
  | [] => 0
  | x :: r => x.toNat * 256 ^ r.length + number r

theorem number_zeros (n : Nat) (b : Bytes) : number (List.replicate n 0 ++ b) = number b := by
  induction n with
  | zero => rfl
  | succ n ih => simp [List.replicate_succ, number, ih]

/-- **C55**: merging the halves of a signature gives twice the key length, and both halves are recovered as numbers by
splitting in the middle; halves which do not fit abort. -/
theorem C55_merge (r s : Bytes) (n : Nat) :
    (r.length ≤ n → s.length ≤ n → ∃ m, mergeEc r s n = .ok m ∧ m.length = 2 * n ∧
      number (m.take n) = number r ∧ number (m.drop n) = number s) ∧
    (n < r.length ∨ n < s.length → mergeEc r s n = .panic) := by
  refine ⟨fun hr hs => ?_, fun h => by simp [mergeEc, h]⟩
  have hl : (List.replicate (n - r.length) (0 : UInt8) ++ r).length = n := by simp; omega
  refine ⟨_, by simp only [mergeEc]; rw [if_neg (by omega)], ?_, ?_, ?_⟩
  · simp; omega
  · rw [List.take_append_of_le_length (by omega), List.take_of_length_le (by omega), number_zeros]
  · rw [List.drop_append_of_le_length (by omega), List.drop_of_length_le (by omega), List.nil_append, number_zeros]

/-- Two signatures that merge to the same bytes are the same pair of numbers. -/
theorem C55_merge_injective (r s r' s' : Bytes) (n : Nat) (m : Bytes) (h : mergeEc r s n = .ok m)
    (h' : mergeEc r' s' n = .ok m) : number r = number r' ∧ number s = number s' := by
  have aux : ∀ {a b : Bytes}, mergeEc a b n = .ok m → a.length ≤ n ∧ b.length ≤ n := by
    intro a b h
    unfold mergeEc at h
    split at h
    · cases h
    · omega
  obtain ⟨a1, a2⟩ := aux h
  obtain ⟨b1, b2⟩ := aux h'
  obtain ⟨m1, e1, _, f1, g1⟩ := (C55_merge r s n).1 a1 a2
  obtain ⟨m2, e2, _, f2, g2⟩ := (C55_merge r' s' n).1 b1 b2
  rw [h] at e1
  rw [h'] at e2
  cases e1
  cases e2
  exact ⟨f1.symm.trans f2, g1.symm.trans g2⟩

/-- Signing with a TPM key on one of the three curves, with halves as the curve has them, gives a signature of the length
COSE prescribes (64, 96, 132 bytes). -/
theorem C55_sign (c : Curve) (n : Nat) (a : Alg) (hc : (c, a, n) ∈ [(Curve.p256, Alg.sha256, 32), (.p384, .sha384, 48),
    (.p521, .sha512, 66)]) (r s : Bytes) (hr : r.length ≤ n) (hs : s.length ≤ n) :
    ∃ m, tpmSign (.ecc c (some a)) (some (r, s)) = .ok m ∧ m.length = 2 * n ∧
      number (m.take n) = number r ∧ number (m.drop n) = number s := by
  obtain ⟨m, h1, h2⟩ := (C55_merge r s n).1 hr hs
  refine ⟨m, ?_, h2⟩
  simp only [List.mem_cons, List.not_mem_nil, or_false, Prod.mk.injEq] at hc
  rcases hc with ⟨rfl, rfl, rfl⟩ | ⟨rfl, rfl, rfl⟩ | ⟨rfl, rfl, rfl⟩ <;> exact h1

/-- A half with a missing leading zero byte. -/
example : mergeEc [7] [1, 2, 3] 3 = .ok [0, 0, 7, 1, 2, 3] := by decide

/-! ### C61 -/

/-- **C61**, precedence: the firmware location first, then the one in `DEVICE_CREDENTIAL`, then `/etc`; each only if it
exists. A variable that is not valid text is an error unless the firmware location exists. -/
theorem C61_precedence (w : Surroundings) :
    (w.exists? firmwarePath = true → find w = some (.ok ⟨firmwarePath, .keep⟩)) ∧
    (w.exists? firmwarePath = false → w.var "DEVICE_CREDENTIAL".toList = some none →
      ∃ e, find w = some (.err e)) ∧
    (∀ p, w.exists? firmwarePath = false → w.var "DEVICE_CREDENTIAL".toList = some (some p) → w.exists? p = true →
      ∃ m, find w = some (.ok ⟨p, m⟩) ∧
        (m = .delete ↔ w.var "DEVICE_CREDENTIAL_DELETE".toList ≠ none) ∧
        (m = .deactivate ↔ w.var "DEVICE_CREDENTIAL_DELETE".toList = none ∧
          w.var "DEVICE_CREDENTIAL_DEACTIVATE".toList ≠ none)) ∧
    (w.exists? firmwarePath = false → (w.var "DEVICE_CREDENTIAL".toList = none ∨
        ∃ p, w.var "DEVICE_CREDENTIAL".toList = some (some p) ∧ w.exists? p = false) →
      find w = if w.exists? etcPath then some (.ok ⟨etcPath, .deactivate⟩) else none) := by
  have e1 : "DEVICE_CREDENTIAL".toList ++ "_DELETE".toList = "DEVICE_CREDENTIAL_DELETE".toList := by decide
  have e2 : "DEVICE_CREDENTIAL".toList ++ "_DEACTIVATE".toList = "DEVICE_CREDENTIAL_DEACTIVATE".toList := by decide
  unfold find
  refine ⟨fun h => ?_, fun h hv => ?_, fun p h hv hp => ?_, fun h hv => ?_⟩
  · simp only [firstOf, Place.resolve, resolveFile, h, if_true]
  · simp only [firstOf, Place.resolve, resolveFile, h, hv]
    exact ⟨_, rfl⟩
  · simp only [firstOf, Place.resolve, resolveFile, h, hv, hp, e1, e2, if_true]
    cases hd : w.var "DEVICE_CREDENTIAL_DELETE".toList with
    | some x => exact ⟨_, rfl, by simp, by simp⟩
    | none =>
      cases hd' : w.var "DEVICE_CREDENTIAL_DEACTIVATE".toList with
      | some x => exact ⟨_, rfl, by simp, by simp⟩
      | none => exact ⟨_, rfl, by simp, by simp⟩
  · rcases hv with hv | ⟨p, hv, hp⟩
    · simp only [firstOf, Place.resolve, resolveFile, h, hv]
      cases w.exists? etcPath <;> rfl
    · simp only [firstOf, Place.resolve, resolveFile, h, hv, hp]
      cases w.exists? etcPath <;> rfl

/-- **C61**, policy: what finishing onboarding may do to files, in every run and up to every point of it: nothing for a
location that is kept, at most removing the file for one that is deleted, at most rewriting it for one that is
deactivated; no other file is touched. -/
theorem C61_policy (C : Codec) (l : Location) (t : Trace sig) (s s' : Files) (h : Prog.Does (deactivate C l) t)
    (hr : Run s t s') :
    (l.policy = .keep → t = []) ∧
    (l.policy = .delete → s' l.path = s l.path ∨ s' l.path = none) ∧
    (∀ q, q ≠ l.path → s' q = s q) := by
  obtain ⟨p, m⟩ := l
  cases m with
  | keep =>
    have := Proc.does_pure h
    subst this
    cases hr
    exact ⟨fun _ => rfl, nofun, fun _ _ => rfl⟩
  | delete =>
    obtain ⟨h1, h2⟩ := removeFile_does h hr
    exact ⟨nofun, fun _ => h1.symm, h2⟩
  | deactivate =>
    refine ⟨nofun, nofun, ?_⟩
    rcases Proc.does_bind h with h | ⟨b, t1, t2, rfl, h1, h2⟩
    · intro q _
      rw [readFile_does h hr]
    · obtain ⟨u, r1, r2⟩ := run_append hr
      have hu := readFile_does ⟨_, h1⟩ r1
      subst hu
      rcases Proc.does_bind h2 with h2 | ⟨c, t3, t4, rfl, h3, h4⟩
      · have := Proc.does_some? h2
        subst this
        cases r2
        exact fun _ _ => rfl
      · obtain ⟨rfl, _⟩ := Proc.ends_some? h3
        exact (writeFile_does h4 r2).1

/-- **C61**, finished: after a successful deactivation the file of a deleted location is gone, and that of a deactivated
one holds the old credential with only the active flag changed. Assumed is that a credential that was read from a file is, deactivated,
read as it is written (shown for the form of data-formats in C86). -/
theorem C61_deactivated (C : Codec) (hC : ∀ b c, b.length < 2 ^ 63 → C.dec b = some c →
      (C.enc { c with active := false }).length < 2 ^ 63 → C.dec (C.enc { c with active := false }) = some { c with active := false })
    (l : Location) (t : Trace sig) (s s' : Files) (h : Prog.Ends (deactivate C l) t (.ok ())) (hr : Run s t s') :
    (l.policy = .delete → s' l.path = none) ∧
    (l.policy = .deactivate → ∃ old c new, s l.path = some old ∧ C.dec old = some c ∧ s' l.path = some new ∧
      (old.length < 2 ^ 63 → new.length < 2 ^ 63 → ∃ c', C.dec new = some c' ∧ c'.active = false ∧ c'.version = c.version ∧ c'.info = c.info ∧
        c'.guid = c.guid ∧ c'.rvinfo = c.rvinfo ∧ c'.keyHash = c.keyHash ∧ c'.keys = c.keys)) := by
  obtain ⟨p, m⟩ := l
  cases m with
  | keep => exact ⟨nofun, nofun⟩
  | delete => exact ⟨fun _ => (removeFile_ends h hr).1, nofun⟩
  | deactivate =>
    refine ⟨nofun, fun _ => ?_⟩
    obtain ⟨b, t1, t2, rfl, h1, h2⟩ := Proc.ends_bind h
    obtain ⟨c, t3, t4, rfl, h3, h4⟩ := Proc.ends_bind h2
    obtain ⟨rfl, hc⟩ := Proc.ends_some? h3
    obtain ⟨u, r1, r2⟩ := run_append hr
    obtain ⟨hu, hs⟩ := readFile_ends h1 r1
    subst hu
    have := writeFile_ends h4 r2
    exact ⟨b, c, _, hs, hc, this, fun ho hl => ⟨_, hC _ _ ho hc hl, rfl, rfl, rfl, rfl, rfl, rfl, rfl⟩⟩

/-- A toy codec with which deactivation can be run: one byte for the flag, the rest constant. -/
def toyCred (a : Bool) : Cred := ⟨a, 101, "dev".toList, List.replicate 16 7, [], ⟨.sha384, []⟩, .plain [1] [2]⟩

def toyCodec : Codec where
  enc c := if c = toyCred true then [1] else if c = toyCred false then [0] else []
  dec
    | [1] => some (toyCred true)
    | [0] => some (toyCred false)
    | _ => none

/-- The toy codec is as assumed. -/
example : ∀ b c, b.length < 2 ^ 63 → toyCodec.dec b = some c → (toyCodec.enc { c with active := false }).length < 2 ^ 63 →
    toyCodec.dec (toyCodec.enc { c with active := false }) = some { c with active := false } := by
  intro b c _ h _
  simp only [toyCodec] at h
  split at h
  · cases h; decide
  · cases h; decide
  · cases h

/-- A deactivation that succeeds. -/
example : ∃ t s', Prog.Ends (deactivate toyCodec ⟨etcPath, .deactivate⟩) t (.ok ()) ∧
    Run (fun q => if q = etcPath then some [1] else none) t s' ∧ s' etcPath = some [0] :=
  ⟨[⟨.read etcPath, (some [1] : Option Bytes)⟩, ⟨.create etcPath, true⟩, ⟨.append etcPath [0], true⟩], _,
    .cons (.cons (.cons (.nil _))),
    .cons (.read (by simp)) (.cons .create (.cons (.append (c := []) (by simp [Files.set])) .nil)),
    by simp [Files.set]⟩

/-! ### C65 -/

/-- **C65** is violated: stopping while a credential is being deactivated can leave an empty file, which is neither the
active nor the deactivated credential and cannot be read. -/
theorem C65_interrupted_violated : ∃ (C : Codec) (l : Location) (t : Trace sig) (s s' : Files) (c : Cred) (old : Bytes),
    s l.path = some old ∧ C.dec old = some c ∧ Prog.Does (deactivate C l) t ∧ Run s t s' ∧ s' l.path = some [] ∧
    C.dec [] = none :=
  ⟨toyCodec, ⟨etcPath, .deactivate⟩, [⟨.read etcPath, (some [1] : Option Bytes)⟩, ⟨.create etcPath, true⟩],
    fun q => if q = etcPath then some [1] else none, _, toyCred true, [1], by simp, rfl,
    ⟨_, .cons (.cons (.nil _))⟩, .cons (.read (by simp)) (.cons .create .nil), by simp [Files.set], rfl⟩

/-- **C65**, what holds: up to any point of a deactivation the file is unchanged or holds a beginning of the deactivated
credential, and it is unchanged if the deactivation failed before writing. -/
theorem C65_interrupted_partial (C : Codec) (l : Location) (hl : l.policy = .deactivate) (t : Trace sig) (s s' : Files)
    (h : Prog.Does (deactivate C l) t) (hr : Run s t s') :
    s' l.path = s l.path ∨ ∃ old c b, s l.path = some old ∧ C.dec old = some c ∧
      b <+: C.enc { c with active := false } ∧ s' l.path = some b := by
  obtain ⟨p, m⟩ := l
  cases hl
  rcases Proc.does_bind h with h | ⟨b, t1, t2, rfl, h1, h2⟩
  · rw [readFile_does h hr]
    exact .inl rfl
  · obtain ⟨u, r1, r2⟩ := run_append hr
    obtain ⟨hu, hs⟩ := readFile_ends h1 r1
    subst hu
    rcases Proc.does_bind h2 with h2 | ⟨c, t3, t4, rfl, h3, h4⟩
    · have := Proc.does_some? h2
      subst this
      cases r2
      exact .inl rfl
    · obtain ⟨rfl, hc⟩ := Proc.ends_some? h3
      rcases (writeFile_does h4 r2).2 with h | ⟨b', hb, h⟩
      · exact .inl h
      · exact .inr ⟨b, c, b', hs, hc, hb, h⟩

/-! ### HMAC with either storage -/

/-- **C13** for the key storage of a credential: verification succeeds exactly if the storage computes the given value
(of the right length), whatever type the value claims to have. -/
theorem C13_storage_partial (K : Keys) (c : Cred) (data : Bytes) (h : Hash) (own : Hash)
    (ho : c.keys.performHmac K data h.type = .ok own) (hl : h.value.length = own.value.length) :
    c.verifyHmac K data h = .ok () ↔ h.value = own.value := by
  unfold Cred.verifyHmac
  rw [ho, Res.bind_ok]
  unfold Hash.compare memcmpEq
  rw [if_neg (by simp [hl])]
  by_cases he : h.value = own.value
  · simp [he]
  · have : (h.value == own.value) = false := by simp [he]
    simp [this, he]

/-- With a TPM key the voucher's value can have another length than the key's algorithm: verification aborts. -/
theorem C13_storage_violated : ∃ (K : Keys) (c : Cred) (data : Bytes) (h : Hash), c.verifyHmac K data h = .panic :=
  ⟨⟨fun _ _ _ => [], fun _ _ _ => some (false, List.replicate 32 1)⟩,
    { toyCred true with keys := .tpm [] [] [] [] }, [], ⟨.hmacSha384, List.replicate 48 1⟩, by decide +kernel⟩

end Verif.Credential
