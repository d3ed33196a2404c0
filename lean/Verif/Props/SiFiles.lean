import Verif.Props.SiClient
/-!
Files deployed by the device (C50).
-/
namespace Verif.SiClient
open Verif Verif.Types Verif.ServiceInfo

variable {h : Host}

/-- Cutting a list after each element with a property: the complete pieces, and the rest. -/
def splitAfter {α : Type} (p : α → Bool) : List α → List (List α) × List α
  | [] => ([], [])
  | x :: r =>
    if p x then ([x] :: (splitAfter p r).1, (splitAfter p r).2)
    else match (splitAfter p r).1 with
      | [] => ([], x :: (splitAfter p r).2)
      | s :: ss => ((x :: s) :: ss, (splitAfter p r).2)

theorem splitAfter_snoc {α : Type} (p : α → Bool) (l : List α) (x : α) : splitAfter p (l ++ [x]) =
    if p x then ((splitAfter p l).1 ++ [(splitAfter p l).2 ++ [x]], []) else ((splitAfter p l).1, (splitAfter p l).2 ++ [x]) := by
  induction l with
  | nil => cases hx : p x <;> simp [splitAfter, hx]
  | cons y l ih =>
    rw [List.cons_append, splitAfter, ih]
    cases hy : p y <;> cases hx : p x <;> simp only [splitAfter, hy, if_true, if_false, Bool.false_eq_true]
    · cases hs : (splitAfter p l).1 <;> simp
    · cases hs : (splitAfter p l).1 <;> simp
    · simp

theorem splitAfter_prefix {α : Type} (p : α → Bool) (l r : List α) : (splitAfter p l).1 <+: (splitAfter p (l ++ r)).1 := by
  induction r generalizing l with
  | nil => simp
  | cons x r ih =>
    have : l ++ x :: r = (l ++ [x]) ++ r := by simp
    rw [this]
    refine List.IsPrefix.trans ?_ (ih _)
    rw [splitAfter_snoc]
    split
    · exact List.prefix_append _ _
    · exact List.prefix_refl _

theorem splitAfter_flatten {α : Type} (p : α → Bool) (l : List α) : (splitAfter p l).1.flatten ++ (splitAfter p l).2 = l := by
  induction l with
  | nil => rfl
  | cons x l ih =>
    rw [splitAfter]
    split
    · simpa using ih
    · split
      · next hs => rw [hs] at ih; simpa using ih
      · next hs => rw [hs] at ih; simpa using ih

/-- The instructions to a module, without the switches. -/
def toModule (m : SiModule) (l : List Item) : List Item := l.filter fun x => x.1 = m ∧ x.2.1 ≠ "active".toList

/-- Specification: the instructions about files, one list for each digest received. -/
def filePieces (l : List Item) : List (List Item) × List Item :=
  splitAfter (fun x => "sha-".toList.isPrefixOf x.2.1) (toModule .binaryFile l)

/-- A file. -/
structure File where
  path : Path
  contents : Bytes
  mode : Nat

/-- The values given to a key. -/
def valuesOf (k : List Char) (seg : List Item) : List Val := (seg.filter fun x => x.2.1 = k).map (·.2.2)

/-- The values of the data chunks. -/
def chunks (seg : List Item) : List Val := (seg.filter fun x => "data".toList.isPrefixOf x.2.1).map (·.2.2)

/-- Specification: the instructions announce this file. There is one name, one length and at most one mode; numbers
are read modulo 2^64 and 2^32; the chunks in order are the contents; the last instruction is the digest. -/
structure Announces (h : Host) (seg : List Item) (f : File) : Prop where
  name : valuesOf "name".toList seg = [.text f.path]
  absolute : ∃ r, f.path = '/' :: r
  length : ∃ n : Int, valuesOf "length".toList seg = [.int n] ∧ n % 2 ^ 64 = f.contents.length
  data : ∃ cs : List Bytes, chunks seg = cs.map .bytes ∧ f.contents = cs.flatten
  mode : (valuesOf "mode".toList seg = [] ∧ f.mode = 0o600) ∨
    ∃ n : Int, valuesOf "mode".toList seg = [.int n] ∧ n % 2 ^ 32 = f.mode
  digest : ∃ init k d t, seg = init ++ [(.binaryFile, k, .bytes d)] ∧ (∃ r, k = "sha-".toList ++ r) ∧ shaType k = some t ∧
    d = h.digest t f.contents

/-- Where a file goes. -/
def target (h : Host) (f : File) : Path :=
  match h.pathPrefix with
  | none => f.path
  | some d => joinPath d (f.path.drop 1)

/-- Specification: what is done to deploy a file. -/
def deployment (h : Host) (f : File) : List Act :=
  [.mkdirAll ((parent (target h f)).getD []), .create (target h f), .append (target h f) f.contents,
   .setMode (target h f) f.mode, .sync (target h f)]

/-- A file in progress and the instructions it comes from. -/
structure FileMatches (seg : List Item) (f : FileSt) : Prop where
  name : valuesOf "name".toList seg = (f.path.map Val.text).toList
  body : match f.body with
    | none => valuesOf "length".toList seg = [] ∧ chunks seg = []
    | some (n, c) => ∃ (z : Int) (cs : List Bytes), valuesOf "length".toList seg = [.int z] ∧ (z % 2 ^ 64).toNat = n ∧
        chunks seg = cs.map .bytes ∧ c = cs.flatten
  mode : match f.mode with
    | none => valuesOf "mode".toList seg = []
    | some n => ∃ z : Int, valuesOf "mode".toList seg = [.int z] ∧ (z % 2 ^ 32).toNat = n

theorem valuesOf_snoc (k : List Char) (seg : List Item) (x : Item) :
    valuesOf k (seg ++ [x]) = if x.2.1 = k then valuesOf k seg ++ [x.2.2] else valuesOf k seg := by
  unfold valuesOf
  split
  · next h => simp [h]
  · next h => simp [h]

theorem chunks_snoc (seg : List Item) (x : Item) :
    chunks (seg ++ [x]) = if "data".toList.isPrefixOf x.2.1 then chunks seg ++ [x.2.2] else chunks seg := by
  unfold chunks
  rw [List.filter_append, List.map_append]
  split
  · next h => rw [List.filter_cons, if_pos h]; rfl
  · next h => rw [List.filter_cons, if_neg h]; simp

theorem matches_other {seg : List Item} {f : FileSt} {x : Item} (hm : FileMatches seg f) (h1 : x.2.1 ≠ "name".toList)
    (h2 : x.2.1 ≠ "length".toList) (h3 : "data".toList.isPrefixOf x.2.1 = false) (h4 : x.2.1 ≠ "mode".toList) :
    FileMatches (seg ++ [x]) f := by
  refine ⟨?_, ?_, ?_⟩
  · rw [valuesOf_snoc, if_neg h1]; exact hm.name
  · have := hm.body
    rw [valuesOf_snoc, if_neg h2, chunks_snoc, h3]
    exact this
  · rw [valuesOf_snoc, if_neg h4]; exact hm.mode

theorem matches_nil : FileMatches [] {} := ⟨rfl, ⟨rfl, rfl⟩, rfl⟩

/-- A change that must succeed, seen by what is done on behalf of its module. -/
theorem hoare_must {α : Type} {I : Trace sig → Prop} {m : SiModule} {a : Act} {X : List (Act × Bool)}
    {Q : Res Err α → Trace sig → Prop} (h0 : ∀ t, acts m t = X → I t) (h1 : ∀ t, acts m t = X ++ [(a, true)] → I t)
    (h2 : ∀ t, acts m t = X ++ [(a, false)] → Q (.err .io) t) (hQ : ∀ r t, Q r t → I t) :
    Hoare remember I (fun t => acts m t = X) (must m a) (Hoare.Mid (fun _ t => acts m t = X ++ [(a, true)]) Q) := by
  have hb : ∀ ok : Bool, Hoare remember I
      (fun t => ∃ s, acts m s = X ∧ remember s (⟨Eff.host m (.does a), ok⟩ : sig.Deed) t)
      (Proc.check .io ok) (Hoare.Mid (fun _ t => acts m t = X ++ [(a, true)]) Q) := by
    intro ok
    have e : ∀ t, (∃ s, acts m s = X ∧ remember s (⟨Eff.host m (.does a), ok⟩ : sig.Deed) t) →
        acts m t = X ++ [(a, ok)] := by
      rintro t ⟨s, hs, rfl⟩
      rw [acts_append, hs]
      simp [acts, actOf]
    cases ok with
    | true => exact Hoare.check (fun t ht => h1 t (e t ht)) (fun t _ ht => e t ht) (fun t hf _ => by cases hf)
    | false =>
      exact Hoare.check (fun t ht => hQ (.err .io) t (h2 t (e t ht))) (fun t hf _ => by cases hf) (fun t _ ht => h2 t (e t ht))
  exact Hoare.act h0 hb

/-- The changes were begun: all but the last succeeded. -/
def Begun (dep : List Act) (p : List (Act × Bool)) : Prop := p.map Prod.fst <+: dep ∧ ∀ x ∈ p.dropLast, x.2 = true

theorem begun_true {dep as : List Act} (h : as <+: dep) : Begun dep (as.map fun a => (a, true)) := by
  refine ⟨by simpa [Function.comp_def] using h, fun x hx => ?_⟩
  have := (List.dropLast_sublist _).subset hx
  obtain ⟨a, -, rfl⟩ := List.mem_map.1 this
  rfl

theorem begun_false {dep as : List Act} {a : Act} (h : as ++ [a] <+: dep) :
    Begun dep (as.map (fun a => (a, true)) ++ [(a, false)]) := by
  refine ⟨by simpa [Function.comp_def] using h, fun x hx => ?_⟩
  rw [List.dropLast_concat] at hx
  obtain ⟨a, -, rfl⟩ := List.mem_map.1 hx
  rfl

theorem target_eq {p q : Path} {c : Bytes} {m : Nat} (hd : destination h p = some q) : q = target h ⟨p, c, m⟩ ∧ ∃ r, p = '/' :: r := by
  unfold destination at hd
  split at hd
  · next r =>
    unfold target
    cases hp : h.pathPrefix with
    | none =>
      rw [hp] at hd
      exact ⟨(Option.some.inj hd).symm, r, rfl⟩
    | some d =>
      rw [hp] at hd
      exact ⟨(Option.some.inj hd).symm, r, rfl⟩
  · cases hd

theorem deploy_hoare {p : Path} {c : Bytes} {mode : Option Nat} {X : List (Act × Bool)} {I : Trace sig → Prop}
    (h0 : ∀ t, acts .binaryFile t = X → I t)
    (h1 : (∃ r, p = '/' :: r) → ∀ t q, acts .binaryFile t = X ++ q → Begun (deployment h ⟨p, c, mode.getD 0o600⟩) q → I t) :
    Hoare remember I (fun t => acts .binaryFile t = X) (deploy h p c mode) fun r t => I t ∧
      (r = .ok () → (∃ r, p = '/' :: r) ∧
        acts .binaryFile t = X ++ (deployment h ⟨p, c, mode.getD 0o600⟩).map fun a => (a, true)) := by
  unfold deploy
  cases hd : destination h p with
  | none => exact Hoare.ret h0 fun t ht => ⟨h0 t ht, fun h => absurd h err_ne_ok⟩
  | some path =>
    obtain ⟨hpath, habs⟩ := target_eq (c := c) (m := mode.getD 0o600) hd
    refine Hoare.bind (M := fun q t => q = path ∧ acts .binaryFile t = X) (Hoare.some? h0 (fun t a ha ht =>
      ⟨(Option.some.inj ha).symm, ht⟩) (fun t ha => by cases ha)) (fun _ _ h => h.1) fun q => Hoare.assume fun hq => ?_
    subst hq
    have hpar : ∀ dir, parent q = some dir → (parent (target h ⟨p, c, mode.getD 0o600⟩)).getD [] = dir := by
      rw [← hpath]
      intro dir hdir
      rw [hdir]
      rfl
    cases hdir : parent q with
    | none => exact Hoare.ret h0 fun t ht => ⟨h0 t ht, fun h => absurd h panic_ne_ok⟩
    | some dir =>
      have hdep : deployment h ⟨p, c, mode.getD 0o600⟩ = [.mkdirAll dir, .create q, .append q c,
          .setMode q (mode.getD 0o600), .sync q] := by
        unfold deployment
        rw [hpar dir hdir, ← hpath]
      rw [hdep] at h1 ⊢
      have hI := h1 habs
      have hT : ∀ as, as <+: [Act.mkdirAll dir, .create q, .append q c, .setMode q (mode.getD 0o600), .sync q] →
          ∀ t, acts .binaryFile t = X ++ as.map (fun a => (a, true)) → I t := fun as has t ht => hI t _ ht (begun_true has)
      have hF : ∀ as a, as ++ [a] <+: [Act.mkdirAll dir, .create q, .append q c, .setMode q (mode.getD 0o600), .sync q] →
          ∀ t, acts .binaryFile t = (X ++ as.map (fun a => (a, true))) ++ [(a, false)] → I t :=
        fun as a has t ht => hI t _ (by rw [ht, List.append_assoc]) (begun_false has)
      have st : ∀ as a, as ++ [a] <+: [Act.mkdirAll dir, .create q, .append q c, .setMode q (mode.getD 0o600), .sync q] →
          Hoare remember I (fun t => acts .binaryFile t = X ++ as.map (fun a => (a, true))) (must .binaryFile a)
            (Hoare.Mid (fun _ t => acts .binaryFile t = X ++ (as ++ [a]).map (fun a => (a, true)))
              fun (r : Res Err Unit) t => I t ∧ (r = .ok () → (∃ r, p = '/' :: r) ∧
                acts .binaryFile t = X ++ [Act.mkdirAll dir, .create q, .append q c, .setMode q (mode.getD 0o600),
                  .sync q].map fun a => (a, true))) := by
        intro as a has
        refine (hoare_must (Q := fun (r : Res Err Unit) t => I t ∧ (r = .ok () → (∃ r, p = '/' :: r) ∧
                acts .binaryFile t = X ++ [Act.mkdirAll dir, .create q, .append q c, .setMode q (mode.getD 0o600),
                  .sync q].map fun a => (a, true))) (hT as ((List.prefix_append _ _).trans has)) (fun t ht => hT (as ++ [a]) has t (by
          rw [ht]; simp)) (fun t ht => ⟨hF as a has t ht, fun h => absurd h err_ne_ok⟩) (fun _ _ h => h.1)).post ?_
        intro r t hr
        cases r with
        | ok u =>
          have hr : acts .binaryFile t = _ := hr
          show acts .binaryFile t = _
          rw [hr]; simp
        | err e => exact hr
        | panic => exact hr
      refine Hoare.bind (Hoare.pre (st [] (.mkdirAll dir) (by simp)) (by simp)) (fun _ _ h => h.1) fun _ => ?_
      refine Hoare.bind (st [.mkdirAll dir] (.create q) (by simp)) (fun _ _ h => h.1) fun _ => ?_
      refine Hoare.bind (st [.mkdirAll dir, .create q] (.append q c) (by simp)) (fun _ _ h => h.1) fun _ => ?_
      refine Hoare.bind (st [.mkdirAll dir, .create q, .append q c] (.setMode q (mode.getD 0o600)) (by simp))
        (fun _ _ h => h.1) fun _ => ?_
      refine (st [.mkdirAll dir, .create q, .append q c, .setMode q (mode.getD 0o600)] (.sync q) (by simp)).withI.post ?_
      rintro r t ⟨hi, hr⟩
      cases r with
      | ok u => exact ⟨hi, fun _ => ⟨habs, hr⟩⟩
      | err e => exact hr
      | panic => exact hr

/-- An instruction without effects. -/
theorem fileItem_quiet {k : List Char} {v : Val} {f : FileSt} (hk : "sha-".toList.isPrefixOf k = false) :
    Prog.Only (fun _ => False) (fileItem h k v f) := by
  unfold fileItem
  refine only_ite (fun _ => only_ite (fun _ => only_fail) fun _ => only_bind only_some? fun _ => only_pure) fun _ =>
    only_ite (fun _ => only_ite (fun _ => only_fail) fun _ => only_bind only_some? fun _ =>
      only_ite (fun _ => only_pure) fun _ => only_lift) fun _ => only_ite (fun _ => ?_) fun _ =>
    only_ite (fun _ => only_ite (fun _ => only_fail) fun _ => only_bind only_some? fun _ => only_pure) fun _ =>
    only_ite (fun hs => by rw [hk] at hs; cases hs) fun _ => only_pure
  split
  · exact only_fail
  · exact only_bind only_some? fun _ => only_pure

theorem prefix_iff {p k : List Char} : p.isPrefixOf k = true ↔ ∃ r, k = p ++ r := by
  rw [List.isPrefixOf_iff_prefix]
  exact ⟨fun ⟨r, h⟩ => ⟨r, h.symm⟩, fun ⟨r, h⟩ => ⟨r, h.symm⟩⟩

theorem asStr_some {v : Val} {s : List Char} (hv : asStr v = some s) : v = .text s := by
  cases v <;> simp [asStr] at hv
  rw [hv]

theorem asBytes_some {v : Val} {s : Bytes} (hv : asBytes v = some s) : v = .bytes s := by
  cases v <;> simp [asBytes] at hv
  rw [hv]

theorem asBool_some {v : Val} {s : Bool} (hv : asBool v = some s) : v = .bool s := by
  cases v <;> simp [asBool] at hv
  rw [hv]

/-- What such an instruction does to the file in progress. -/
theorem fileItem_matches {seg : List Item} {m : SiModule} {k : List Char} {v : Val} {f f' : FileSt} {t : Trace sig}
    (hk : "sha-".toList.isPrefixOf k = false) (hm : FileMatches seg f) (he : Prog.Ends (fileItem h k v f) t (.ok f')) :
    FileMatches (seg ++ [(m, k, v)]) f' := by
  unfold fileItem at he
  split at he
  · next hn =>
    subst hn
    split at he
    · exact (Proc.ends_fail he).elim
    · next hp =>
      obtain ⟨s, t1, t2, rfl, h1, h2⟩ := Proc.ends_bind he
      obtain ⟨-, rfl⟩ := Proc.ends_pure h2
      have hv := asStr_some (Proc.ends_some? h1).2
      subst hv
      have hp : f.path = none := by simpa using hp
      refine ⟨?_, ?_, ?_⟩
      · rw [valuesOf_snoc, if_pos rfl, hm.name, hp]; rfl
      · have := hm.body
        rw [valuesOf_snoc, if_neg (by simp), chunks_snoc, if_neg (by simp)]
        exact this
      · rw [valuesOf_snoc, if_neg (by simp)]; exact hm.mode
  · split at he
    · next hn =>
      subst hn
      split at he
      · exact (Proc.ends_fail he).elim
      · next hp =>
        obtain ⟨n, t1, t2, rfl, h1, h2⟩ := Proc.ends_bind he
        have hv := (Proc.ends_some? h1).2
        split at h2
        · obtain ⟨-, rfl⟩ := Proc.ends_pure h2
          have hp : f.body = none := by simpa using hp
          have hb := hm.body
          rw [hp] at hb
          obtain ⟨z, rfl, hz⟩ : ∃ z : Int, v = .int z ∧ (z % 2 ^ 64).toNat = n := by
            cases v <;> simp [asU64] at hv
            exact ⟨_, rfl, by simpa using hv⟩
          refine ⟨?_, ?_, ?_⟩
          · rw [valuesOf_snoc, if_neg (by simp)]; exact hm.name
          · refine ⟨z, [], ?_, hz, ?_, rfl⟩
            · rw [valuesOf_snoc, if_pos rfl, hb.1]; rfl
            · rw [chunks_snoc, if_neg (by simp), hb.2]; rfl
          · rw [valuesOf_snoc, if_neg (by simp)]; exact hm.mode
        · cases (Proc.ends_lift h2).2
    · next hl =>
      split at he
      · next hdat =>
        split at he
        · exact (Proc.ends_fail he).elim
        · next n c hb =>
          obtain ⟨b, t1, t2, rfl, h1, h2⟩ := Proc.ends_bind he
          obtain ⟨-, rfl⟩ := Proc.ends_pure h2
          have hv := asBytes_some (Proc.ends_some? h1).2
          subst hv
          have hbody := hm.body
          rw [hb] at hbody
          obtain ⟨z, cs, g1, g2, g3, rfl⟩ := hbody
          obtain ⟨r, rfl⟩ := prefix_iff.1 hdat
          refine ⟨?_, ?_, ?_⟩
          · rw [valuesOf_snoc, if_neg (by simp)]; exact hm.name
          · refine ⟨z, cs ++ [b], ?_, g2, ?_, by simp⟩
            · rw [valuesOf_snoc, if_neg (by simp)]; exact g1
            · rw [chunks_snoc, if_pos hdat, g3]; simp
          · rw [valuesOf_snoc, if_neg (by simp)]; exact hm.mode
      · next hdat =>
        split at he
        · next hn =>
          subst hn
          split at he
          · exact (Proc.ends_fail he).elim
          · next hp =>
            obtain ⟨n, t1, t2, rfl, h1, h2⟩ := Proc.ends_bind he
            obtain ⟨-, rfl⟩ := Proc.ends_pure h2
            have hv := (Proc.ends_some? h1).2
            have hp : f.mode = none := by simpa using hp
            have hmd := hm.mode
            rw [hp] at hmd
            obtain ⟨z, rfl, hz⟩ : ∃ z : Int, v = .int z ∧ (z % 2 ^ 32).toNat = n := by
              cases v <;> simp [asU32] at hv
              exact ⟨_, rfl, by simpa using hv⟩
            refine ⟨?_, ?_, ?_⟩
            · rw [valuesOf_snoc, if_neg (by simp)]; exact hm.name
            · have := hm.body
              rw [valuesOf_snoc, if_neg (by simp), chunks_snoc, if_neg (by simp)]
              exact this
            · exact ⟨z, by rw [valuesOf_snoc, if_pos rfl, hmd]; rfl, hz⟩
        · next hmd =>
          rw [hk] at he
          obtain ⟨-, rfl⟩ := Proc.ends_pure he
          exact matches_other hm ‹_› ‹_› (Bool.eq_false_iff.2 hdat) ‹_›

theorem checkDigest_ok {t : HashType} {d c : Bytes} (hc : checkDigest h t d c = .ok ()) : d = h.digest t c := by
  unfold checkDigest memcmpEq at hc
  split at hc
  · next heq =>
    split at heq
    · cases heq
    · simpa using heq
  all_goals cases hc

/-- The instruction which completes a file. -/
theorem fileItem_sha {seg : List Item} {k : List Char} {v : Val} {f : FileSt} {X : List (Act × Bool)}
    {I : Trace sig → Prop} (hk : "sha-".toList.isPrefixOf k = true) (hm : FileMatches seg f)
    (h0 : ∀ t, acts .binaryFile t = X → I t)
    (h1 : ∀ file, Announces h (seg ++ [(.binaryFile, k, v)]) file → ∀ t q, acts .binaryFile t = X ++ q →
      Begun (deployment h file) q → I t) :
    Hoare remember I (fun t => acts .binaryFile t = X) (fileItem h k v f) fun r t => I t ∧ ∀ f', r = .ok f' →
      f' = {} ∧ ∃ file, Announces h (seg ++ [(.binaryFile, k, v)]) file ∧
        acts .binaryFile t = X ++ (deployment h file).map fun a => (a, true) := by
  obtain ⟨r, hr⟩ := prefix_iff.1 hk
  unfold fileItem
  rw [if_neg (by rw [hr]; simp), if_neg (by rw [hr]; simp), if_neg (by rw [hr]; simp), if_neg (by rw [hr]; simp), if_pos hk]
  have hE : ∀ (e : Err) t, acts .binaryFile t = X → I t ∧ ∀ f', (Res.err e : Res Err FileSt) = .ok f' →
      f' = {} ∧ ∃ file, Announces h (seg ++ [(.binaryFile, k, v)]) file ∧
        acts .binaryFile t = X ++ (deployment h file).map fun a => (a, true) :=
    fun e t ht => ⟨h0 t ht, fun f' h => absurd h err_ne_ok⟩
  refine Hoare.bind (M := fun d t => asBytes v = some d ∧ acts .binaryFile t = X) (Hoare.some? h0 (fun t d hd ht => ⟨hd, ht⟩)
    (fun t _ ht => hE _ t ht)) (fun _ _ h => h.1) fun d => Hoare.assume fun hd => ?_
  refine Hoare.bind (M := fun ty t => shaType k = some ty ∧ acts .binaryFile t = X) (Hoare.some? h0 (fun t d hd ht => ⟨hd, ht⟩)
    (fun t _ ht => hE _ t ht)) (fun _ _ h => h.1) fun ty => Hoare.assume fun hty => ?_
  refine Hoare.bind (M := fun _ t => acts .binaryFile t = X) (Hoare.check h0 (fun t _ ht => ht)
    (fun t _ ht => hE _ t ht)) (fun _ _ h => h.1) fun _ => ?_
  refine Hoare.bind (M := fun p t => f.path = some p ∧ acts .binaryFile t = X) (Hoare.some? h0 (fun t d hd ht => ⟨hd, ht⟩)
    (fun t _ ht => hE _ t ht)) (fun _ _ h => h.1) fun p => Hoare.assume fun hp => ?_
  refine Hoare.bind (M := fun b t => f.body = some b ∧ acts .binaryFile t = X) (Hoare.some? h0 (fun t d hd ht => ⟨hd, ht⟩)
    (fun t _ ht => hE _ t ht)) (fun _ _ h => h.1) fun ⟨n, c⟩ => Hoare.assume fun hb => ?_
  refine Hoare.bind (M := fun _ t => c.length = n ∧ acts .binaryFile t = X) (Hoare.check h0 (fun t hc ht => ⟨by simpa using hc, ht⟩)
    (fun t _ ht => hE _ t ht)) (fun _ _ h => h.1) fun _ => Hoare.assume fun hlen => ?_
  refine Hoare.bind (M := fun _ t => checkDigest h ty d c = .ok () ∧ acts .binaryFile t = X) (Hoare.lift h0 (fun t ht => ?_))
    (fun _ _ h => h.1) fun _ => Hoare.assume fun hdig => ?_
  · cases hc : checkDigest h ty d c with
    | ok u => exact ⟨rfl, ht⟩
    | err e => exact hE e t ht
    | panic => exact ⟨h0 t ht, fun f' h => absurd h panic_ne_ok⟩
  have hann : (∃ r, p = '/' :: r) → Announces h (seg ++ [(.binaryFile, k, v)]) ⟨p, c, f.mode.getD 0o600⟩ := by
    intro habs
    have hbody := hm.body
    rw [hb] at hbody
    obtain ⟨z, cs, g1, g2, g3, g4⟩ := hbody
    refine ⟨?_, habs, ⟨z, ?_, ?_⟩, ⟨cs, ?_, g4⟩, ?_, ⟨seg, k, d, ty, by rw [asBytes_some hd], ⟨r, hr⟩, hty, checkDigest_ok hdig⟩⟩
    · rw [valuesOf_snoc, if_neg (by rw [hr]; simp), hm.name, hp]; rfl
    · rw [valuesOf_snoc, if_neg (by rw [hr]; simp)]; exact g1
    · show z % 2 ^ 64 = (c.length : Int)
      omega
    · rw [chunks_snoc, if_neg (by rw [hr]; simp)]; exact g3
    · rw [valuesOf_snoc, if_neg (by rw [hr]; simp)]
      have hmode := hm.mode
      cases hmd : f.mode with
      | none =>
        rw [hmd] at hmode
        exact .inl ⟨hmode, rfl⟩
      | some n =>
        rw [hmd] at hmode
        obtain ⟨z, e1, e2⟩ := hmode
        refine .inr ⟨z, e1, ?_⟩
        show z % 2 ^ 32 = (n : Int)
        omega
  refine Hoare.bind (M := fun _ t => (I t ∧ ∃ r, p = '/' :: r) ∧
      acts .binaryFile t = X ++ (deployment h ⟨p, c, f.mode.getD 0o600⟩).map fun a => (a, true))
    ((deploy_hoare h0 fun habs t q hq hbeg => h1 _ (hann habs) t q hq hbeg).post fun o t ho => ?_) (fun _ _ h => h.1)
    fun _ => Hoare.pure (fun t ht => ht.1.1) fun t ht => ⟨ht.1.1, fun f' hf' => ?_⟩
  · cases o with
    | ok u => exact ⟨⟨ho.1, (ho.2 rfl).1⟩, (ho.2 rfl).2⟩
    | err e => exact ⟨ho.1, fun f' h => absurd h err_ne_ok⟩
    | panic => exact ⟨ho.1, fun f' h => absurd h panic_ne_ok⟩
  · exact ⟨(Res.ok.inj hf').symm, _, hann ht.1.2, ht.2⟩

/-- The invariant of the loop. -/
def FileInv (h : Host) (a : List Item) (s : St) (t : Trace sig) : Prop :=
  ∃ fs, (List.Forall₂ (Announces h) (filePieces a).1 fs ∧ FileMatches (filePieces a).2 s.file) ∧
    acts .binaryFile t = (fs.flatMap (deployment h)).map fun a => (a, true)

/-- Specification: what is done about files. The files of the first so many digests are announced as they must be, and
what is done is the beginning of their deployment, one after the other; only the last operation may have failed. -/
def FileTrace (h : Host) (l : List Item) (t : Trace sig) : Prop :=
  ∃ fs, fs.length ≤ (filePieces l).1.length ∧ List.Forall₂ (Announces h) ((filePieces l).1.take fs.length) fs ∧
    Begun (fs.flatMap (deployment h)) (acts .binaryFile t)

theorem filePieces_prefix {a l : List Item} (hl : a <+: l) : (filePieces a).1 <+: (filePieces l).1 := by
  obtain ⟨r, rfl⟩ := hl
  unfold filePieces toModule
  rw [List.filter_append]
  exact splitAfter_prefix _ _ _

theorem take_of_prefix {a l : List Item} (hl : a <+: l) {fs : List File}
    (hf : List.Forall₂ (Announces h) (filePieces a).1 fs) :
    fs.length ≤ (filePieces l).1.length ∧ List.Forall₂ (Announces h) ((filePieces l).1.take fs.length) fs := by
  have hp := filePieces_prefix hl
  have hlen := hf.length_eq
  refine ⟨by rw [← hlen]; exact hp.length_le, ?_⟩
  rw [← hlen, ← List.prefix_iff_eq_take.1 hp]
  exact hf

theorem begun_append {d e : List Act} {q : List (Act × Bool)} (hq : Begun e q) :
    Begun (d ++ e) (d.map (fun a => (a, true)) ++ q) := by
  obtain ⟨⟨r, hr⟩, h2⟩ := hq
  refine ⟨⟨r, by rw [← hr]; simp [Function.comp_def]⟩, fun x hx => ?_⟩
  rcases List.eq_nil_or_concat q with rfl | ⟨q', y, rfl⟩
  · rw [List.append_nil] at hx
    obtain ⟨a, -, rfl⟩ := List.mem_map.1 ((List.dropLast_sublist _).subset hx)
    rfl
  · rw [List.concat_eq_append] at hx h2
    rw [← List.append_assoc, List.dropLast_concat] at hx
    rw [List.dropLast_concat] at h2
    rcases List.mem_append.1 hx with hx | hx
    · obtain ⟨a, -, rfl⟩ := List.mem_map.1 hx
      rfl
    · exact h2 x hx

theorem fileInv_trace {a l : List Item} {s : St} {t : Trace sig} (hl : a <+: l) (hi : FileInv h a s t) : FileTrace h l t := by
  obtain ⟨fs, ⟨h1, -⟩, h3⟩ := hi
  obtain ⟨g1, g2⟩ := take_of_prefix hl h1
  exact ⟨fs, g1, g2, by rw [h3]; exact begun_true (List.prefix_refl _)⟩

theorem filePieces_other {a : List Item} {x : Item} (hx : ¬(x.1 = .binaryFile ∧ x.2.1 ≠ "active".toList)) :
    filePieces (a ++ [x]) = filePieces a := by
  unfold filePieces toModule
  rw [List.filter_append, List.filter_cons, if_neg (by simpa using hx)]
  simp

theorem filePieces_file {a : List Item} {x : Item} (hx : x.1 = .binaryFile) (hk : x.2.1 ≠ "active".toList) :
    filePieces (a ++ [x]) = if "sha-".toList.isPrefixOf x.2.1 then
      ((filePieces a).1 ++ [(filePieces a).2 ++ [x]], []) else ((filePieces a).1, (filePieces a).2 ++ [x]) := by
  unfold filePieces toModule
  rw [List.filter_append, List.filter_cons, if_pos (by simpa using ⟨hx, hk⟩), List.filter_nil, splitAfter_snoc]

theorem item_file {l a : List Item} {s : St} {x : Item} (hl : a ++ [x] <+: l) :
    Hoare remember (FileTrace h l) (FileInv h a s) (item h s x)
      fun r t => FileTrace h l t ∧ ∀ s', r = .ok s' → FileInv h (a ++ [x]) s' t := by
  have hal : a <+: l := (List.prefix_append _ _).trans hl
  obtain ⟨m, k, v⟩ := x
  refine hoare_item (fun t hi => fileInv_trace hal hi) (fun t e hi => ⟨fileInv_trace hal hi, fun s' h => absurd h err_ne_ok⟩)
    ?_ ?_ fun hk hm => ?_
  · rintro rfl - t hi
    refine ⟨fileInv_trace hal hi, fun s' hs' => ?_⟩
    cases hs'
    unfold FileInv
    rw [filePieces_other (by simp)]
    exact hi
  · rintro rfl - t hi
    refine ⟨fileInv_trace hal hi, fun s' hs' => ?_⟩
    cases hs'
    unfold FileInv
    rw [filePieces_other (by simp)]
    exact hi
  · by_cases hmf : m = .binaryFile
    · subst hmf
      refine Hoare.exists_pre fun fs => Hoare.assume fun ⟨hf, hmt⟩ => ?_
      have h0 : ∀ t, acts .binaryFile t = (fs.flatMap (deployment h)).map (fun a => (a, true)) → FileTrace h l t :=
        fun t ht => fileInv_trace hal ⟨fs, ⟨hf, hmt⟩, ht⟩
      have hpc := filePieces_file (a := a) (x := (.binaryFile, k, v)) rfl hk
      cases hsha : "sha-".toList.isPrefixOf k with
      | true =>
        simp only [hsha, if_true] at hpc
        have hpre : filePieces (a ++ [(.binaryFile, k, v)]) = ((filePieces a).1 ++ [(filePieces a).2 ++ [(.binaryFile, k, v)]], []) :=
          hpc
        have hext : ∀ file, Announces h ((filePieces a).2 ++ [(.binaryFile, k, v)]) file →
            List.Forall₂ (Announces h) (filePieces (a ++ [(.binaryFile, k, v)])).1 (fs ++ [file]) := fun file hfile => by
          rw [hpre]
          exact List.rel_append hf (.cons hfile .nil)
        refine Hoare.bind (M := fun f' t => f' = {} ∧ ∃ file, Announces h ((filePieces a).2 ++ [(.binaryFile, k, v)]) file ∧
            acts .binaryFile t = (fs.flatMap (deployment h)).map (fun a => (a, true)) ++
              (deployment h file).map fun a => (a, true))
          ((fileItem_sha hsha hmt h0 fun file hfile t q hq hbeg => ?_).post fun o t ho => ?_) (fun _ _ h => h.1) fun f' =>
          Hoare.assume fun hf' => ?_
        · obtain ⟨g1, g2⟩ := take_of_prefix hl (hext file hfile)
          refine ⟨fs ++ [file], g1, g2, ?_⟩
          rw [hq, List.flatMap_append, List.flatMap_singleton]
          exact begun_append hbeg
        · cases o with
          | ok u => exact ho.2 u rfl
          | err e => exact ⟨ho.1, fun f' h => absurd h err_ne_ok⟩
          | panic => exact ⟨ho.1, fun f' h => absurd h panic_ne_ok⟩
        · subst hf'
          have fin : ∀ t, (∃ file, Announces h ((filePieces a).2 ++ [(.binaryFile, k, v)]) file ∧
              acts .binaryFile t = (fs.flatMap (deployment h)).map (fun a => (a, true)) ++
                (deployment h file).map fun a => (a, true)) →
              FileInv h (a ++ [(.binaryFile, k, v)]) { s with file := {} } t := by
            rintro t ⟨file, hfile, ht⟩
            refine ⟨fs ++ [file], ⟨hext file hfile, ?_⟩, ?_⟩
            · rw [hpre]; exact matches_nil
            · rw [ht]; simp
          refine Hoare.pure (fun t ht => fileInv_trace hl (fin t ht)) fun t ht =>
            ⟨fileInv_trace hl (fin t ht), fun s' hs' => ?_⟩
          cases hs'
          exact fin t ht
      | false =>
        simp only [hsha, Bool.false_eq_true, if_false] at hpc
        have hpre : filePieces (a ++ [(.binaryFile, k, v)]) = ((filePieces a).1, (filePieces a).2 ++ [(.binaryFile, k, v)]) := hpc
        have hq : Prog.Only (fun _ => False) (obey h s .binaryFile k v) :=
          only_bind (fileItem_quiet hsha) fun _ => only_pure
        refine (hoare_and (hoare_only hq (J := fun t => acts .binaryFile t = (fs.flatMap (deployment h)).map fun a => (a, true))
          fun _ _ h => h.elim) (R := fun r => ∀ s', r = .ok s' → FileMatches ((filePieces a).2 ++ [(.binaryFile, k, v)]) s'.file)
          ?_).conseq (fun _ h => h) (fun r t hr => ⟨h0 t hr.1, fun s' hs' => ?_⟩) h0
        · rintro t r he s' rfl
          obtain ⟨u, hu, rfl⟩ := obey_file he
          exact fileItem_matches hsha hmt hu
        · refine ⟨fs, ⟨?_, ?_⟩, hr.1⟩
          · rw [hpre]; exact hf
          · rw [hpre]; exact hr.2 s' hs'
    · refine (hoare_and (hoare_only only_obey (J := FileInv h a s) ?_) (R := fun r => ∀ s', r = .ok s' → s'.file = s.file)
        ?_).conseq (fun _ h => h) (fun r t hr => ⟨fileInv_trace hal hr.1, fun s' hs' => ?_⟩) fun t hi => fileInv_trace hal hi
      · rintro t d hd ⟨fs, h1, h2⟩
        refine ⟨fs, h1, ?_⟩
        rw [acts_append, h2]
        simp [acts, actOf_by hd hmf]
      · rintro t r he s' rfl
        exact (obey_apart he).file hmf
      · unfold FileInv
        rw [filePieces_other (by simp [hmf]), hr.2 s' hs']
        exact hr.1

theorem only_finish : Prog.Only (fun e => By .sshKey e ∨ By .subscriptionManager e) (finish h s) := by
  have mono : ∀ {α : Type} {P Q : Eff → Prop} {p : Prog sig α}, Prog.Only P p → (∀ e, P e → Q e) → Prog.Only Q p :=
    fun hp hPQ t ht d hd => hPQ _ (hp t ht d hd)
  exact only_bind (only_when (mono only_setUpUser fun _ h => .inl h)) fun _ =>
    only_bind (only_when (mono only_rhsm fun _ h => .inr h)) fun _ => only_pure

/-- **C50**: whatever the device does to deploy files while processing a message, up to any point, is the deployment of
files announced by the message, one for each digest in order: at the announced absolute path (below the prefix, if one is
configured), with the chunks in order as contents, of the announced length and digest, and with the announced mode. Only
the last operation may have failed; if the message is processed successfully, then all its files have been deployed. -/
theorem C50_files_partial (l : List Item) (t : Trace sig) :
    (Prog.Does (process h l) t → FileTrace h l t) ∧
    (∀ r, Prog.Ends (process h l) t (.ok r) → ∃ fs, List.Forall₂ (Announces h) (filePieces l).1 fs ∧
      acts .binaryFile t = (fs.flatMap (deployment h)).map fun a => (a, true)) := by
  have key : Hoare remember (FileTrace h l) (fun t => t = []) (process h l) fun r t => FileTrace h l t ∧
      ∀ x, r = .ok x → ∃ fs, List.Forall₂ (Announces h) (filePieces l).1 fs ∧
        acts .binaryFile t = (fs.flatMap (deployment h)).map fun a => (a, true) := by
    refine hoare_process (FileInv h) l ⟨[], ⟨.nil, matches_nil⟩, rfl⟩ (fun a s t hl hi => fileInv_trace hl hi)
      (fun a x s hl => item_file hl) (fun _ _ h => h.1) (fun t e hi => ⟨hi, fun x h => absurd h err_ne_ok⟩)
      (fun t hi => ⟨hi, fun x h => absurd h panic_ne_ok⟩) fun s => ?_
    refine (hoare_only only_finish (J := FileInv h l s) ?_).conseq (fun _ h => h)
      (fun r t hi => ⟨fileInv_trace (List.prefix_refl _) hi, fun x _ => ?_⟩) fun t hi => fileInv_trace (List.prefix_refl _) hi
    · rintro t d hd ⟨fs, h1, h2⟩
      refine ⟨fs, h1, ?_⟩
      rw [acts_append, h2]
      rcases hd with hd | hd <;> simp [acts, actOf_by hd]
    · obtain ⟨fs, ⟨h1, -⟩, h2⟩ := hi
      exact ⟨fs, h1, h2⟩
  exact ⟨(key.trace t).1, fun r he => ((key.trace t).2 _ he).2 r rfl⟩

/-- **C50**: for a length that fits into 64 bits and a mode that fits into 32 bits the announcement is taken as it is. -/
theorem C50_sensible {seg : List Item} {f : File} (ha : Announces h seg f) :
    (∀ n : Int, valuesOf "length".toList seg = [.int n] → 0 ≤ n → n < 2 ^ 64 → f.contents.length = n) ∧
    (∀ n : Int, valuesOf "mode".toList seg = [.int n] → 0 ≤ n → n < 2 ^ 32 → f.mode = n) := by
  refine ⟨fun n hn h0 h1 => ?_, fun n hn h0 h1 => ?_⟩
  · obtain ⟨z, h2, h3⟩ := ha.length
    rw [h2] at hn
    cases hn
    omega
  · rcases ha.mode with ⟨h2, h3⟩ | ⟨z, h2, h3⟩
    · rw [h2] at hn; cases hn
    · rw [h2] at hn
      cases hn
      omega

namespace Toy

/-- A file in two chunks. -/
def fileMessage (len mode : Int) : List Item :=
  [(.binaryFile, "active".toList, .bool true), (.binaryFile, "name".toList, .text "/etc/f".toList),
   (.binaryFile, "length".toList, .int len), (.binaryFile, "mode".toList, .int mode),
   (.binaryFile, "data001".toList, .bytes [1, 2]), (.binaryFile, "data002".toList, .bytes [3]),
   (.binaryFile, "sha-256".toList, .bytes (host.digest .sha256 [1, 2, 3]))]

/-- That file. -/
def file : File := ⟨"/etc/f".toList, [1, 2, 3], 0o644⟩

end Toy

/-- A message as in `C50_files_partial` that is processed successfully. -/
example : (∃ out, Prog.Ends (process Toy.host (Toy.fileMessage 3 0o644)) (Toy.trace (some 0) Toy.all (Toy.fileMessage 3 0o644))
      (.ok (false, out))) ∧
    (filePieces (Toy.fileMessage 3 0o644)).1.length = 1 ∧
    acts .binaryFile (Toy.trace (some 0) Toy.all (Toy.fileMessage 3 0o644)) =
      (deployment Toy.host Toy.file).map fun a => (a, true) :=
  ⟨Toy.outcome_ok (by decide +kernel), by decide +kernel, by decide +kernel⟩

/-- Announcements as in `C50_sensible`. -/
example : ∃ seg f, Announces Toy.host seg f ∧ valuesOf "length".toList seg = [.int 3] :=
  ⟨(Toy.fileMessage 3 0o644).tail, Toy.file, ⟨rfl, ⟨"etc/f".toList, rfl⟩, ⟨3, rfl, by decide⟩, ⟨[[1, 2], [3]], rfl, rfl⟩,
    .inr ⟨0o644, rfl, by decide⟩, ⟨(Toy.fileMessage 3 0o644).tail.dropLast, "sha-256".toList, _, .sha256, rfl, ⟨"256".toList, rfl⟩,
      by decide +kernel, rfl⟩⟩, rfl⟩

/-- Numbers are cut off: a file announced with a negative length of enormous size and a mode of more than 32 bits is
deployed. -/
theorem C50_numbers_violated : ∃ (h : Host) (l : List Item) (t : Trace sig) (r : Bool × List Item) (n m : Int) (p : Path)
    (c : Bytes) (mode : Nat), Prog.Ends (process h l) t (.ok r) ∧
    valuesOf "length".toList (toModule .binaryFile l) = [.int n] ∧ valuesOf "mode".toList (toModule .binaryFile l) = [.int m] ∧
    (Act.append p c, true) ∈ acts .binaryFile t ∧ (Act.setMode p mode, true) ∈ acts .binaryFile t ∧
    n ≠ c.length ∧ m ≠ mode := by
  obtain ⟨out, he⟩ := Toy.outcome_ok (code := some 0) (good := Toy.all) (l := Toy.fileMessage (-2 ^ 64 + 3) (2 ^ 32 + 0o644))
    (b := false) (by decide +kernel)
  exact ⟨Toy.host, _, _, _, -2 ^ 64 + 3, 2 ^ 32 + 0o644, "/etc/f".toList, [1, 2, 3], 0o644, he, rfl, rfl, by decide +kernel,
    by decide +kernel, by decide +kernel, by decide +kernel⟩

/-- Not all or nothing: when writing fails (or the device is cut off there), then the file at the announced path has been
emptied, and what was in it before is lost. -/
theorem C50_atomic_violated : ∃ (h : Host) (l : List Item) (t : Trace sig) (p : Path) (c : Bytes), Prog.Ends (process h l) t (.err .io) ∧
    acts .binaryFile t = [(.mkdirAll "/etc".toList, true), (.create p, true), (.append p c, false)] :=
  ⟨Toy.host, Toy.fileMessage 3 0o644, _, "/etc/f".toList, [1, 2, 3],
    Toy.outcome_err (code := some 0) (good := fun a => a ≠ .append "/etc/f".toList [1, 2, 3]) (by decide +kernel),
    by decide +kernel⟩

end Verif.SiClient
