import Verif.Props.OwnerServer
import Verif.Props.Voucher
import Verif.Props.Cbor
/-!
C40: the voucher entries the owner server hands out.
-/
namespace Verif.OwnerServer
open Verif Verif.Voucher Verif.Store Verif.Types Verif.ServiceInfo Verif.Cbor.Spec

variable {R : OwnerEnv} {c : Bool}

/-- `raw` is a COSE_Sign1: tag 18 and an array of the four items `l`, with heads of any form. -/
def IsSign1Of (raw : Bytes) (l : List Bytes) : Prop :=
  ∃ th ah, raw = th ++ ah ++ l.flatten ∧ IsHead 6 18 th ∧ IsHead 4 4 ah ∧ l.length = 4 ∧ ∀ i ∈ l, IsItem i

/-- The shortest form of a COSE_Sign1 with the items `l`. -/
def shortest (l : List Bytes) : Bytes := [0xd2, 0x84] ++ l.flatten

theorem isSign1_shortest {l : List Bytes} (h4 : l.length = 4) (hi : ∀ i ∈ l, IsItem i) : IsSign1Of (shortest l) l :=
  ⟨[0xd2], [0x84], rfl, .imm (m := 6) (v := 18) (by omega) (by omega), .imm (m := 4) (v := 4) (by omega) (by omega), h4, hi⟩

theorem sign1_reads {raw : Bytes} {l : List Bytes} (h : IsSign1Of raw l) :
    Cbor.deserialize c (some 4) raw = .ok (⟨some 18, l⟩, []) := by
  obtain ⟨th, ah, rfl, ht, ha, h4, hi⟩ := h
  have := Cbor.deserialize_of_grammar (c := c) (size := some 4) (tag := some 18) (th := th) (ah := ah) (l := l) (rest := [])
    (.inr ⟨18, rfl, ht⟩) (by rw [h4]; exact ha) hi (.inr ⟨by rw [h4], by intro e; rw [e] at h4; cases h4⟩)
  rw [List.append_nil] at this
  exact this

theorem serialize_sign1 {l : List Bytes} (h4 : l.length = 4) :
    Cbor.serialize ⟨some 18, l⟩ = .ok (shortest l) := by
  simp only [Cbor.serialize, h4]
  rfl

/-- What is handed out for a stored entry: the same four items in shortest form. -/
theorem entry_eq {v : Voucher R.E} {n : Nat} {raw : Bytes} {l : List Bytes} {s : Sign1}
    (hr : v.entries.contents[n]? = some raw) (hs : IsSign1Of raw l) (hp : parseSign1 R.E c raw = .ok s) :
    entry c v n = .ok (shortest l) := by
  have h4 := hs
  obtain ⟨_, _, _, _, _, h4, _⟩ := h4
  unfold entry
  rw [hr]
  simp only
  rw [hp, sign1_reads hs]
  simp only [liftP]
  show liftP (Cbor.serialize ⟨some 18, l⟩) = _
  rw [serialize_sign1 h4]
  rfl

/-- **C40**, for entries stored in shortest form (as `extend` writes them, `C40_extended`): entry `n` of the
voucher is handed out byte for byte. Missing: entries stored in another form (`C40_entry_violated`; then see
`C40_same_signature`), and the answer to requests which are out of range (`C40_out_of_range_violated`). -/
theorem C40_entry_partial {v : Voucher R.E} {n : Nat} {l : List Bytes} {s : Sign1} (h4 : l.length = 4)
    (hi : ∀ i ∈ l, IsItem i) (hr : v.entries.contents[n]? = some (shortest l))
    (hp : parseSign1 R.E c (shortest l) = .ok s) : entry c v n = .ok (shortest l) :=
  entry_eq hr (isSign1_shortest h4 hi) hp

/-- **C40**: whatever form an entry has, what is handed out for it has the same signature, signed payload and
headers, of which a recipient's verification depends. -/
theorem C40_same_signature {v : Voucher R.E} {n : Nat} {raw : Bytes} {l : List Bytes} {s : Sign1}
    (hr : v.entries.contents[n]? = some raw) (hs : IsSign1Of raw l) (hp : parseSign1 R.E c raw = .ok s) :
    ∃ e, entry c v n = .ok e ∧ parseSign1 R.E c e = .ok s := by
  refine ⟨_, entry_eq hr hs hp, ?_⟩
  obtain ⟨_, _, _, _, _, h4, hi⟩ := id hs
  unfold parseSign1 at hp ⊢
  rw [sign1_reads hs] at hp
  rw [sign1_reads (isSign1_shortest h4 hi)]
  exact hp

/-- Entries of vouchers read from CBOR by a build with overflow checks are of the assumed form, if nothing
follows the signature within the entry. -/
theorem sign1_of_parse {raw : Bytes} {s : Sign1} (hp : parseSign1 R.E true raw = .ok s)
    (hend : ∀ a rest, Cbor.deserialize true (some 4) raw = .ok (a, rest) → rest = []) : ∃ l, IsSign1Of raw l := by
  unfold parseSign1 at hp
  obtain ⟨⟨a, rest⟩, ha, hp⟩ := Res.bind_eq_ok.1 hp
  have hd : Cbor.deserialize true (some 4) raw = .ok (a, rest) := by
    cases h : Cbor.deserialize true (some 4) raw with
    | ok x => rw [h] at ha; exact congrArg _ (Res.ok.inj ha)
    | err _ => rw [h] at ha; cases ha
    | panic => rw [h] at ha; cases ha
  simp only at hp
  split at hp
  · cases hp
  rename_i htag
  simp only [ne_eq, Decidable.not_not] at htag
  obtain ⟨th, ah, h1, h2, h3, h4, h5⟩ := Verif.Cbor.C02_parse_sound (some 4) (by simp) raw rest a hd
  have := hend a rest hd
  subst this
  rcases h2 with ⟨h2, _⟩ | ⟨t, h2, h2'⟩
  · rw [htag] at h2; cases h2
  rw [htag] at h2
  cases h2
  have h44 := h5 4 rfl
  rw [h44] at h3
  rw [List.append_nil] at h1
  exact ⟨a.contents, th, ah, h1, h2', h3, h44, h4⟩

/-- **C40**: the entry which `extend` adds to a voucher is handed out byte for byte. -/
theorem C40_extended (L : CodecLaws R.E) {v v' : Voucher R.E} {k : R.E.Priv} {payload raw prot sig : Bytes} {s : Sign1}
    (hn : v'.entries.contents = v.entries.contents ++ [raw]) (hraw : signRaw R.E k payload = .ok raw)
    (hsig : R.E.sign k payload = some (prot, sig)) (l1 : prot.length < 2 ^ 63) (l2 : payload.length < 2 ^ 63)
    (l3 : sig.length < 2 ^ 63) (hp : parseSign1 R.E c raw = .ok s) :
    entry c v' v.entries.contents.length = .ok raw := by
  have hr : raw = shortest [R.E.encBytes prot, emptyMap, R.E.encBytes payload, R.E.encBytes sig] := by
    unfold signRaw at hraw
    rw [hsig] at hraw
    simp only [ofOpt] at hraw
    change liftP (Cbor.serialize ⟨some 18, [R.E.encBytes prot, emptyMap, R.E.encBytes payload, R.E.encBytes sig]⟩) = _ at hraw
    rw [serialize_sign1 rfl] at hraw
    exact (Res.ok.inj hraw).symm
  subst hr
  refine C40_entry_partial (s := s) rfl ?_ (by rw [hn]; simp) hp
  intro i hi
  simp only [List.mem_cons, List.not_mem_nil, or_false] at hi
  rcases hi with rfl | rfl | rfl | rfl
  · exact L.bytes_item _ l1
  · exact .map (v := 0) (h := [0xa0]) (items := []) (.imm (m := 5) (v := 0) (by omega) (by omega)) (by omega) rfl (by simp)
  · exact L.bytes_item _ l2
  · exact L.bytes_item _ l3

section
variable {B : VStore (Voucher R.E)} {cfg : Config R} {Id : Type} [DecidableEq Id] {idOf : List Char → Option Id}
  {aead : Http.Aead} {encode : Resp → Bytes}

local notation "Srv" => server R c B cfg Id idOf aead encode
local notation "Histories" => Hist R c B cfg idOf aead encode
local notation "Reached" => reached R c B cfg idOf aead encode

/-- **C40**, for the server: what is sent as an entry, in any history, is the entry asked for of the voucher held
for the device whose HelloDevice was answered in this session. -/
theorem C40_replies (h : Histories) (rq : Http.Request Srv) (b : Bytes) (tok : Option (List Char))
    (hr : (Http.step (Reached h) rq).2 = .ok .to2OVNextEntry b tok) :
    ∃ i g n6 kx cs v n e now, Http.InSession (Reached h) rq i ∧
      HelloDone R c B cfg idOf aead encode h i g n6 kx cs ∧
      (B.load now (Reached h).world (guidText g)).2 = .ok (some v) ∧
      R.decGetEntry rq.body = some n ∧ entry c v n = .ok e ∧ b = encode (.ovEntry n e) := by
  obtain ⟨a, w, resp, data, keys, ha, hh, hso, hom, henc, hck⟩ := Http.step_ok hr
  have q := explained h rq a ha
  rw [server_handle] at hh
  rcases accepted_cases ha with ⟨_, h2, _⟩ | ⟨h1, h2, hk, n, hreq, hn⟩ | ⟨_, h2, _⟩ | ⟨_, h2, _⟩ | ⟨_, h2, _⟩ | ⟨_, h2, _⟩
  case inr.inl =>
    rw [hreq] at hh
    simp only [handle, Prod.mk.injEq] at hh
    obtain ⟨hw, hh⟩ := hh
    obtain ⟨hx, rfl⟩ := keep_some hh
    obtain ⟨rfl, t, g, v, e, htx, hg, hl, he, rfl⟩ := getEntry_some
      (w' := (getEntry R c B rq.oracle n a.sess.data _).1) (Prod.ext rfl hx)
    cases hn6 : a.sess.data.nonce6 with
    | none => exact absurd hn6 (q.paired (by rw [htx]; nofun))
    | some n6 =>
      obtain ⟨g', kx, cs, p, hgl, hgt, _, _⟩ := q.hello n6 hn6
      have hgg : g = g' := by
        have : t = guidText g' := by rw [hgt] at htx; exact (Option.some.inj htx).symm
        rw [this] at hg
        exact RvServer.parseGuid_text hgl hg
      subst hgg
      rw [hk] at henc
      exact ⟨a.id, g, n6, kx, cs, v, n, e, _, ⟨a, ha, rfl⟩, p, hl, hn, he, (Option.some.inj henc).symm⟩
  all_goals rw [h2] at hom; cases hom

/-- **C40**: and it is sent, as long as the entry is in the voucher in the assumed form: the handler answers. -/
theorem C40_answered {o : Oracle R} {n : Nat} {s : Data R} {w : B.W} {g : Bytes} {v : Voucher R.E} {l : List Bytes}
    {x : Sign1} (hs : s.guid = some (guidText g)) (hg : g.length = 16)
    (hl : (B.load o.now w (guidText g)).2 = .ok (some v)) (h4 : l.length = 4)
    (hi : ∀ i ∈ l, IsItem i) (hr : v.entries.contents[n]? = some (shortest l))
    (hp : parseSign1 R.E c (shortest l) = .ok x) (k : Option Http.Keys) :
    (handle R c B cfg o (.getEntry n) s k w).2 = some (.ovEntry n (shortest l), s, k) := by
  have he := C40_entry_partial (c := c) h4 hi hr hp
  simp only [handle]
  have : (getEntry R c B o n s w).2 = some (.ovEntry n (shortest l), s) := by
    unfold getEntry
    rw [hs]
    simp only [Option.bind_some]
    rw [RvServer.parseGuid_of hg]
    simp only
    cases hb : B.load o.now w (guidText g) with
    | mk w' r =>
      rw [hb] at hl
      cases hl
      simp only [he]
  rw [this]
  rfl

/-- The second part of **C40** is violated: a request out of range makes the handler panic (the request gets no
proper answer), for every voucher. -/
theorem C40_out_of_range_violated (v : Voucher R.E) (n : Nat) (h : v.entries.contents.length ≤ n) :
    entry c v n = .panic := by
  unfold entry
  rw [List.getElem?_eq_none h]
end

end Verif.OwnerServer
