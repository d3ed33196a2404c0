import Verif.Lemmas.Honest
import Verif.Spec.Device
import Verif.Props.DeviceExample
/-!
C47: fetching the entries of a voucher.
-/
namespace Verif.Device
open Verif Verif.Voucher Verif.Types
variable {R : DevEnv} {c : Bool} {A : Http.Aead}

theorem precheck_entry {cl : Http.Client} (hk : cl.keys = none) (hl : cl.last = some .to2ProveOVHdr ∨ cl.last = some .to2OVNextEntry) :
    Http.precheck cl .to2GetOVNextEntry .to2OVNextEntry none = none := by
  obtain ⟨tok, k, l, n⟩ := cl
  simp only at hk hl
  subst hk
  rcases hl with rfl | rfl <;> rfl

theorem HonestEntries.mono {es : List Bytes} {t u : Trace (sig R)} (h : HonestEntries c es t) (hu : ∀ d ∈ u, d ∈ t) :
    HonestEntries c es u := fun j tok o hj hm => h j tok o hj (hu _ hm)

/-- One round of the loop with an honest server. -/
theorem entries_round {es got : List Bytes} {i k : Nat} {cl : Http.Client} {t : Trace (sig R)}
    {r : Res (Http.Client × DevErr) (Http.Client × List Bytes)} (hk : cl.keys = none)
    (hl : cl.last = some .to2ProveOVHdr ∨ cl.last = some .to2OVNextEntry) (ht : HonestEntries c es t)
    (he : Prog.Ends (entriesFrom (R := R) c A cl i got (k + 1)) t r) :
    ∃ e cl', es[i % 256]? = some e ∧ cl'.keys = none ∧ cl'.last = some .to2OVNextEntry ∧
      ((i % 256 ≠ i ∧ r = .err (cl', .entry)) ∨
        (i % 256 = i ∧ ∃ t', Prog.Ends (entriesFrom (R := R) c A cl' (i + 1) (got ++ [e]) k) t' r ∧ ∀ d ∈ t', d ∈ t)) := by
  obtain ⟨r1, t1, t2, rfl, h1, h2⟩ := Prog.ends_bind he
  obtain ⟨iv, body, o, hb, rfl, h3⟩ := ends_say_sent (precheck_entry hk hl) (by intro iv; rw [hk]; rfl) h1
  have hbody : body = R.encGetEntry (i % 256) := by
    rw [hk] at hb
    exact (Option.some.inj hb).symm
  subst hbody
  obtain ⟨q, e, rfl, g1, g2, g3, g4, g5⟩ := ht (i % 256) cl.token o (Nat.mod_lt _ (by decide)) (by simp)
  have h4 := h3 q q.body (i % 256, e) rfl g2 g3 g4 (by simp [hk, Http.decryptWith]) g5
  subst h4
  refine ⟨e, ⟨q.auth.join.or cl.token, cl.keys, some .to2OVNextEntry, some (cl.nonInterop.getD q.kdfHeader)⟩, g1, hk, rfl, ?_⟩
  · by_cases hi : i % 256 = i
    · refine .inr ⟨hi, t2, ?_, fun d hd => List.mem_append_right _ hd⟩
      have h2 : Prog.Ends (Proc.bind (Proc.check _ (decide (i % 256 = i))) _) t2 r := h2
      rw [decide_eq_true hi] at h2
      exact h2
    · refine .inl ⟨hi, ?_⟩
      have h2 : Prog.Ends (Proc.bind (Proc.check _ (decide (i % 256 = i))) _) t2 r := h2
      rw [decide_eq_false hi] at h2
      exact (Prog.ends_ret h2).2.symm

/-- **C47**, what holds: with an honest server, fetching the entries of a voucher with up to 256 entries succeeds and yields
precisely them. -/
theorem C47_entries_partial (es : List Bytes) (hn : es.length ≤ 256) (cl : Http.Client) (hk : cl.keys = none)
    (hl : cl.last = some .to2ProveOVHdr) (t : Trace (sig R)) (r : Res (Http.Client × DevErr) (Http.Client × List Bytes))
    (ht : HonestEntries c es t) (he : Prog.Ends (entriesFrom (R := R) c A cl 0 [] es.length) t r) :
    ∃ cl', r = .ok (cl', es) := by
  have key : ∀ (k i : Nat) (got : List Bytes) (cl : Http.Client) (t : Trace (sig R)), i + k = es.length → got = es.take i →
      cl.keys = none → cl.last = some .to2ProveOVHdr ∨ cl.last = some .to2OVNextEntry → HonestEntries c es t →
      Prog.Ends (entriesFrom (R := R) c A cl i got k) t r → ∃ cl', r = .ok (cl', es) := by
    intro k
    induction k with
    | zero =>
      intro i got cl t hi hg hk hl ht he
      obtain ⟨-, h⟩ := Prog.ends_ret he
      refine ⟨cl, h.symm.trans ?_⟩
      rw [hg, List.take_of_length_le (by omega)]
    | succ k ih =>
      intro i got cl t hi hg hk hl ht he
      obtain ⟨e, cl', h1, h2, h3, h4 | h4⟩ := entries_round hk hl ht he
      · exact absurd (Nat.mod_eq_of_lt (by omega)) h4.1
      · obtain ⟨h5, t', h6, h7⟩ := h4
        refine ih (i + 1) _ cl' t' (by omega) ?_ h2 (.inr h3) (ht.mono h7) h6
        rw [h5] at h1
        rw [hg, List.take_succ, h1]
        rfl
  exact key es.length 0 [] cl t (by omega) rfl hk (.inl hl) ht he

/-- **C47** is violated: with an honest server, fetching the entries of a voucher with more than 256 entries always fails,
because the request for entry 256 asks for entry 0. -/
theorem C47_entries_violated (es : List Bytes) (hn : 256 < es.length) (cl : Http.Client) (hk : cl.keys = none)
    (hl : cl.last = some .to2ProveOVHdr) (t : Trace (sig R)) (r : Res (Http.Client × DevErr) (Http.Client × List Bytes))
    (ht : HonestEntries c es t) (he : Prog.Ends (entriesFrom (R := R) c A cl 0 [] es.length) t r) :
    ∃ cl', r = .err (cl', .entry) := by
  have key : ∀ (k i : Nat) (got : List Bytes) (cl : Http.Client) (t : Trace (sig R)), i + k = es.length → i ≤ 256 →
      cl.keys = none → cl.last = some .to2ProveOVHdr ∨ cl.last = some .to2OVNextEntry → HonestEntries c es t →
      Prog.Ends (entriesFrom (R := R) c A cl i got k) t r → ∃ cl', r = .err (cl', .entry) := by
    intro k
    induction k with
    | zero => intro i got cl t hi hi' hk hl ht he; omega
    | succ k ih =>
      intro i got cl t hi hi' hk hl ht he
      obtain ⟨e, cl', h1, h2, h3, h4 | h4⟩ := entries_round hk hl ht he
      · exact ⟨cl', h4.2⟩
      · obtain ⟨h5, t', h6, h7⟩ := h4
        exact ih (i + 1) _ cl' t' (by omega) (by omega) h2 (.inr h3) (ht.mono h7) h6
  exact key es.length 0 [] cl t (by omega) (by omega) hk (.inl hl) ht he

/-! ### Examples -/

namespace Toy

/-- An entry, and a server that answers each request with it. -/
def anEntry : Bytes := [0xd2, 0x84] ++ (Verif.Toy.encBytes [] ++ [0xa0] ++ Verif.Toy.encBytes [1] ++ Verif.Toy.encBytes [7])

def entryReply (b : Bytes) : Http.NetReply :=
  ⟨true, .code MsgType.to2OVNextEntry.code, none, false, 0x82 :: (env.encU16 ((b.headD 0).toNat) ++ anEntry)⟩

def serving (_ : Unit) : (e : (sig env).Eff) → Unit × (sig env).Ans e
  | .iv => ((), [])
  | .app e => ((), (os fresh e).2)
  | .net q => ((), some (entryReply q.body))

def atEntries : Http.Client := ⟨none, none, some .to2ProveOVHdr, none⟩

theorem decEntry_reply : ∀ j : Fin 256, decEntry env true (entryReply (env.encGetEntry j)).body = some (j.val, anEntry) := by
  decide +kernel

theorem serving_net {α : Type} (p : Prog (sig env) α) (s : Http.Sent) (o : Option Http.NetReply)
    (h : (⟨.net s, o⟩ : (sig env).Deed) ∈ Prog.doings serving () p) : o = some (entryReply s.body) := by
  induction p with
  | ret a => cases h
  | act e k ih =>
    rcases List.mem_cons.1 h with h | h
    · cases e with
      | net q => cases h; rfl
      | iv => cases h
      | app e => cases h
    · exact ih _ h

/-- The server is honest for vouchers with at least 256 entries. -/
theorem serving_honest {α : Type} (p : Prog (sig env) α) (n : Nat) (hn : 256 ≤ n) :
    HonestEntries true (List.replicate n anEntry) (Prog.doings serving () p) := by
  intro j tok o hj hm
  refine ⟨_, anEntry, serving_net p _ o hm, ?_, rfl, rfl, nofun, decEntry_reply ⟨j, hj⟩⟩
  rw [List.getElem?_replicate, if_pos (by omega)]

/-- The hypotheses of `C47_entries_partial` are met for a voucher with 256 entries, -/
example : ∃ t r cl, HonestEntries (R := env) true (List.replicate 256 anEntry) t ∧
    Prog.Ends (entriesFrom (R := env) true RvServer.Toy.aead atEntries 0 [] 256) t r ∧ r = .ok (cl, List.replicate 256 anEntry) := by
  have h1 := serving_honest (entriesFrom (R := env) true RvServer.Toy.aead atEntries 0 [] 256) 256 (by decide)
  have h2 := Prog.exec_ends serving () (entriesFrom (R := env) true RvServer.Toy.aead atEntries 0 [] 256)
  obtain ⟨cl, h3⟩ := C47_entries_partial (c := true) (List.replicate 256 anEntry) (by rw [List.length_replicate]; exact Nat.le_refl _) atEntries rfl rfl _ _ h1
    (by rw [List.length_replicate]; exact h2)
  exact ⟨_, _, cl, h1, h2, h3⟩

/-- and those of `C47_entries_violated` for one with 257. -/
example : ∃ t r cl, HonestEntries (R := env) true (List.replicate 257 anEntry) t ∧
    Prog.Ends (entriesFrom (R := env) true RvServer.Toy.aead atEntries 0 [] 257) t r ∧ r = .err (cl, .entry) := by
  have h1 := serving_honest (entriesFrom (R := env) true RvServer.Toy.aead atEntries 0 [] 257) 257 (by decide)
  have h2 := Prog.exec_ends serving () (entriesFrom (R := env) true RvServer.Toy.aead atEntries 0 [] 257)
  obtain ⟨cl, h3⟩ := C47_entries_violated (c := true) (List.replicate 257 anEntry) (by rw [List.length_replicate]; decide) atEntries rfl rfl _ _ h1
    (by rw [List.length_replicate]; exact h2)
  exact ⟨_, _, cl, h1, h2, h3⟩

end Toy
end Verif.Device
