import Verif.Props.Life
/-!
**C91**: whether a device that was sold belongs to its last owner alone.

It does not: the device knows only the manufacturer's key, and a voucher is valid for it if it leads from this key to the owner by
signatures. Whoever once owned the device has such a voucher, and can sell the device again. What remains true is that nobody else can.
-/
namespace Verif.Voucher
open Verif Verif.Cbor Verif.Cbor.Spec

variable {E : Env} {c : Bool}

/-- The entry `e` is signed by the owner of the key `k`. -/
def SignedBy (E : Env) (c : Bool) (k : E.Pub) (e : Bytes) : Prop :=
  ∃ s, parseSign1 E c e = .ok s ∧ E.verify k s.prot s.payload s.sig = true

/-- Two chains of entries, `l1` and `l2`, part from each other after the entries `es`, at a party that owns the device by both of them:
each chain ends there or goes on with an entry signed by this party, not the same one. -/
structure Parts (E : Env) (c : Bool) (info : Bytes) (mfg : E.Pub) (hdr : Bytes) (l1 l2 : List Bytes) (o1 o2 : E.Pub)
    (es r1 r2 : List Bytes) (ps : List (Payload E)) : Prop where
  first : l1 = es ++ r1
  second : l2 = es ++ r2
  common : SignChain E c info mfg hdr es ps
  differ : r1.head? ≠ r2.head?
  ends1 : r1 = [] → o1 = lastOwner mfg ps
  ends2 : r2 = [] → o2 = lastOwner mfg ps
  sold1 : ∀ e ∈ r1.head?, SignedBy E c (lastOwner mfg ps) e
  sold2 : ∀ e ∈ r2.head?, SignedBy E c (lastOwner mfg ps) e

theorem parts {info : Bytes} {mfg : E.Pub} {hdr : Bytes} {l1 l2 : List Bytes} {ps1 ps2 : List (Payload E)}
    (h1 : SignChain E c info mfg hdr l1 ps1) (h2 : SignChain E c info mfg hdr l2 ps2) :
    l1 = l2 ∨ ∃ es r1 r2 ps, Parts E c info mfg hdr l1 l2 (lastOwner mfg ps1) (lastOwner mfg ps2) es r1 r2 ps := by
  induction h1 generalizing l2 ps2 with
  | nil =>
    cases h2 with
    | nil => exact .inl rfl
    | cons hs hv hp hprev hinfo rest =>
      refine .inr ⟨[], [], _, [], ⟨rfl, rfl, .nil, by simp, fun _ => rfl, (nomatch ·), by simp, ?_⟩⟩
      intro e he
      cases he
      exact ⟨_, hs, hv⟩
  | @cons key prev raw raws s p qs hs hv hp hprev hinfo rest ih =>
    cases h2 with
    | nil =>
      refine .inr ⟨[], _, [], [], ⟨rfl, rfl, .nil, by simp, (nomatch ·), fun _ => rfl, ?_, by simp⟩⟩
      intro e he
      cases he
      exact ⟨_, hs, hv⟩
    | @cons _ _ raw2 raws2 s2 p2 qs2 hs2 hv2 hp2 hprev2 hinfo2 rest2 =>
      by_cases he : raw = raw2
      · subst he
        rw [hs] at hs2
        cases hs2
        rw [hp] at hp2
        cases hp2
        rcases ih rest2 with rfl | ⟨es, r1, r2, ps, P⟩
        · exact .inl rfl
        · refine .inr ⟨raw :: es, r1, r2, p :: ps, ⟨?_, ?_, .cons hs hv hp hprev hinfo P.common, P.differ, P.ends1, P.ends2, P.sold1, P.sold2⟩⟩
          · rw [P.first]; rfl
          · rw [P.second]; rfl
      · refine .inr ⟨[], _, _, [], ⟨rfl, rfl, .nil, by simpa using he, (nomatch ·), (nomatch ·), ?_, ?_⟩⟩
        · intro e he
          cases he
          exact ⟨_, hs, hv⟩
        · intro e he
          cases he
          exact ⟨_, hs2, hv2⟩

/-- **C91**, what holds: of two verified vouchers with the same header and HMAC that name different owners, there is a party that owns
the device by both of them, and from which they differ: it is itself the owner by one of them, and sold the device by the other; or it
sold the device by both. So only who once owned the device can make a second owner.

Missing from the full statement: that there is no second owner at all (`C91_sold_twice_violated`, `C91_former_violated`). -/
theorem C91_parted_partial {v1 v2 : Voucher E} (w1 : Wf c v1) (w2 : Wf c v2) (hh : v1.header = v2.header)
    {hdr : Bytes} (hd1 : hdrBytes v1 = .ok hdr) (hd2 : hdrBytes v2 = .ok hdr) {ps1 ps2 : List (Payload E)}
    (h1 : verifyAll c v1 = .ok ps1) (h2 : verifyAll c v2 = .ok ps2)
    (hne : lastOwner v1.header.mfgKey ps1 ≠ lastOwner v2.header.mfgKey ps2) :
    ∃ es r1 r2 ps, Parts E c (v1.header.guid ++ v1.header.deviceInfo.toUTF8.toList) v1.header.mfgKey hdr v1.entries.contents
      v2.entries.contents (lastOwner v1.header.mfgKey ps1) (lastOwner v2.header.mfgKey ps2) es r1 r2 ps := by
  have c1 := (verifyAll_iff w1.info hd1 ps1).1 h1
  have c2 := (verifyAll_iff w2.info hd2 ps2).1 h2
  rw [← hh] at c2 hne ⊢
  rcases parts c1 c2 with e | h
  · rw [e] at c1
    exact absurd (by rw [c1.det c2]) hne
  · exact h

/-- **C91** fails: whoever owns a device can sell it twice. Both vouchers are verified from the first entry to the last, have the header,
HMAC and certificates of the device, and name the different buyers as owners. -/
theorem C91_sold_twice_violated (L : CodecLaws E) {v : Voucher E} (w : Canonical c v) (hn : v.entries.contents.length < 65535)
    {ps : List (Payload E)} (hv : verifyAll c v = .ok ps) {k : E.Priv} (hk : GoodKey E k)
    (hown : E.keyMatches (lastOwner v.header.mfgKey ps) k = true) {a b : E.Pub} (hab : a ≠ b)
    (ha : SmallPayload E none a) (hb : SmallPayload E none b) :
    ∃ va vb psa psb, extend c v k none a = (va, .ok ()) ∧ extend c v k none b = (vb, .ok ()) ∧
      verifyAll c va = .ok psa ∧ verifyAll c vb = .ok psb ∧
      lastOwner va.header.mfgKey psa = a ∧ lastOwner vb.header.mfgKey psb = b ∧
      lastOwner va.header.mfgKey psa ≠ lastOwner vb.header.mfgKey psb ∧
      va.header = vb.header ∧ va.hmac = vb.hmac ∧ va.chain = vb.chain ∧ Canonical c va ∧ Canonical c vb ∧
      hdrBytes va = hdrBytes vb := by
  obtain ⟨va, pa, a1, a2, a3, a4, a5, a6, a7, a8, a9⟩ := w.extend L hn hv hk hown ha
  obtain ⟨vb, pb, b1, b2, b3, b4, b5, b6, b7, b8, b9⟩ := w.extend L hn hv hk hown hb
  have ea : lastOwner va.header.mfgKey (ps ++ [pa]) = a := by rw [Life.lastOwner_append']; exact a4
  have eb : lastOwner vb.header.mfgKey (ps ++ [pb]) = b := by rw [Life.lastOwner_append']; exact b4
  refine ⟨va, vb, _, _, a1, b1, a3, b3, ea, eb, by rw [ea, eb]; exact hab, a6.trans b6.symm, a7.trans b7.symm, a8.trans b8.symm, a2, b2, ?_⟩
  unfold hdrBytes getLeaf getRaw
  rw [a9 1 (by omega), b9 1 (by omega), a9 2 (by omega), b9 2 (by omega)]

end Verif.Voucher

namespace Verif.Life
open Verif Verif.Voucher Verif.Store Verif.Types

variable {R : Whole} {c : Bool} {Bm : MfgServer.MStore} {mcfg : MfgServer.Config R.mfg} {Idm : Type} [DecidableEq Idm]
    {idOfm : List Char → Option Idm} {A : Http.Aead} {encM : MfgServer.Resp → Bytes}
    {cfg cfg0 : OwnerServer.Config R.toOwnerEnv} {rcfg : RvServer.Config R.toRvEnv} {N : To0.Msgs} {encR : RvServer.Resp → Bytes}
    {encO : OwnerServer.Resp → Bytes}

/-- **C91** fails for former owners too: a device is manufactured and sold to an owner, who sells it on. Then the voucher that the former
owner has kept is as good as that of the last owner: it is valid for the device, with the former owner as its owner, and the rendezvous
server accepts registrations with it. -/
theorem C91_former_violated (L0 : Laws mcfg cfg0 rcfg N A encM encR encO) (L : Laws mcfg cfg rcfg N A encM encR encO)
    {w : Credential.Surroundings} {args : MfgClient.Args}
    {t : Trace (MfgClient.sig R.cli)} {h : MfgServer.Hist R.mfg c Bm mcfg idOfm A encM} {s s' : Fs.Files} {path : Fs.Path}
    {cr : Credential.Cred} {dev : R.E.Pub} {v v0 v' : Voucher R.E} {steps later : List (Step R.E)} {r0 r : Res Err Unit}
    (M : Manufactured c A Bm mcfg idOfm encM w args t h s s' path cr dev v) (X0 : Transferred c mcfg cfg0 steps v v0 r0)
    (X : Transferred c mcfg cfg (steps ++ later) v v' r) (hne : cfg0.ownerPub ≠ cfg.ownerPub) :
    Device.VoucherFor R.toDevEnv c cr dev cfg0.ownerPub v0 ∧ To0.Accepts R.toOwnerEnv c cfg0 rcfg dev v0 ∧
    Device.VoucherFor R.toDevEnv c cr dev cfg.ownerPub v' ∧ To0.Accepts R.toOwnerEnv c cfg rcfg dev v' := by
  obtain ⟨-, -, -, -, -, -, -, -, a1, a2⟩ := C78_voucher L0 M X0
  obtain ⟨-, -, -, -, -, -, -, -, b1, b2⟩ := C78_voucher L M X
  exact ⟨a1, a2, b1, b2⟩

end Verif.Life
