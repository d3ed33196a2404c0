import Verif.Props.Exclusive
import Verif.Props.LifeExample
/-!
A device of which 11 is the first owner: 11 sells it to 12, and keeps its own voucher (C91).
-/
namespace Verif.Voucher
open Verif

/-- The example voucher is in the form in which vouchers are made. -/
theorem exCanonical (c : Bool) : ∃ v : Voucher Toy.env, Canonical c v ∧ v.entries = ⟨none, []⟩ ∧ v.header = exHeader := by
  obtain ⟨v, h1, h2, h3, h4, h5, h6, h7⟩ := exVoucher c
  refine ⟨v, ⟨h2, h7, by rw [h3]; rfl, by rw [h3]; rfl, by rw [h3]; rfl, ?_, by rw [h6], by rw [h6]; intro e he; cases he⟩, h6, h3⟩
  unfold new at h1
  obtain ⟨hb, _, h1⟩ := Res.bind_eq_ok.1 h1
  obtain ⟨eb, _, h1⟩ := Res.bind_eq_ok.1 h1
  cases h1
  rfl

/-- The manufacturer 7 sells a device to 11 and to 12; the vouchers differ from the manufacturer on. -/
example (c : Bool) : ∃ (va vb : Voucher Toy.env) (psa psb : List (Payload Toy.env)), verifyAll c va = .ok psa ∧ verifyAll c vb = .ok psb ∧
    lastOwner va.header.mfgKey psa = (11 : UInt8) ∧ lastOwner vb.header.mfgKey psb = (12 : UInt8) ∧
    ∃ hdr es r1 r2 ps, Parts Toy.env c (va.header.guid ++ va.header.deviceInfo.toUTF8.toList) va.header.mfgKey hdr va.entries.contents
      vb.entries.contents (lastOwner va.header.mfgKey psa) (lastOwner vb.header.mfgKey psb) es r1 r2 ps := by
  obtain ⟨v, w, he, hh⟩ := exCanonical c
  obtain ⟨va, vb, psa, psb, -, -, h1, h2, h3, h4, h5, h6, h7, h8, wa, wb, h9⟩ := C91_sold_twice_violated (c := c) Toy.codecLaws w
    (by rw [he]; decide) (ps := []) (by unfold verifyAll; rw [he]; rfl) (Toy.goodKey (7 : UInt8)) (by rw [hh]; rfl)
    (a := (11 : UInt8)) (b := (12 : UInt8)) (by decide) (Toy.smallPayload _) (Toy.smallPayload _)
  obtain ⟨hdr, hd⟩ := wa.written.wf.hdr
  exact ⟨va, vb, psa, psb, h1, h2, h3, h4, hdr, C91_parted_partial wa.written.wf wb.written.wf h6 hd (h9 ▸ hd) h1 h2 h5⟩

end Verif.Voucher

namespace Verif.Life
open Verif Verif.Voucher Verif.Store Verif.Types Verif.Fs

namespace Toy
open Verif.RvServer.Toy (aead guid)
open Verif.Device.Toy (sized)

/-- The former owner 11. -/
def cfg0 : OwnerServer.Config env.toOwnerEnv := ⟨(11 : UInt8), (11 : UInt8), (13 : UInt8), (13 : UInt8), some [((100 : Nat), (100 : Nat))], 600, 61⟩

theorem ownerKeys0 : Device.OwnerKeys env.toDevEnv cfg0 where
  proves n _ := Device.Toy.signs _ _
  setsUp := Device.Toy.signs _ _
  size g n hg hn := by
    show (g ++ n ++ [(13 : UInt8)]).length < _
    simp [hg, hn]

theorem laws0 : Laws mcfg cfg0 rcfg To0.Toy.msgs aead MfgServer.Toy.encode To0.Toy.encode Device.Toy.encode :=
  { laws with
    trust := ⟨trust.1, trust.2, trust.3, trust.4, trust.5⟩
    keys := ownerKeys0
    redirects := Device.Toy.signs _ _
    period := by decide }

theorem short0 : (match issued with
    | some v => (match serialize v with | .ok b => decide (b.length < 2000) | _ => false)
    | none => false) = true := by decide +kernel

theorem transferred0 {v : Voucher sized} (hv : issued = some v) : ∃ r, Transferred (R := env) true mcfg cfg0 [] v v r := by
  have hs := short0
  rw [hv] at hs
  refine ⟨.ok (), ⟨(11 : UInt8), rfl, trivial, rfl⟩, (by simp), .inl rfl, by decide, rfl, ?_⟩
  intro n b hn hb
  dsimp only at hs
  cases hr : serialize v with
  | err e => rw [hr] at hs; cases hs
  | panic => rw [hr] at hs; cases hs
  | ok raw =>
    rw [hr] at hs
    have hs : raw.length < 2000 := of_decide_eq_true hs
    unfold OwnerServer.buildTo0d at hb
    rw [hr] at hb
    rw [Res.bind_ok, show Cbor.serialize ⟨none, [raw, env.encU32 cfg0.period, env.encNonce n]⟩ =
      .ok ([0x83] ++ [raw, env.encU32 cfg0.period, Verif.Toy.encBytes n].flatten) from rfl] at hb
    have e := Res.ok.inj hb
    rw [← e]
    simp only [List.length_append, List.flatten_cons, List.flatten_nil, List.length_cons, List.length_nil, Device.Toy.encBytes_length,
      Cbor.toBe_length, hn]
    omega

/-- The device onboards with the voucher of 11 as well as with that of 12. -/
example : ∃ v v' : Voucher sized, Device.VoucherFor env.toDevEnv true cred (9 : UInt8) (11 : UInt8) v ∧
    To0.Accepts env.toOwnerEnv true cfg0 rcfg (9 : UInt8) v ∧
    Device.VoucherFor env.toDevEnv true cred (9 : UInt8) (12 : UInt8) v' ∧ To0.Accepts env.toOwnerEnv true cfg rcfg (9 : UInt8) v' := by
  obtain ⟨v, s', hv, -, M⟩ := manufactured
  obtain ⟨v', hv'⟩ : ∃ v', sold = some v' := by unfold sold; rw [hv]; exact ⟨_, rfl⟩
  obtain ⟨r0, X0⟩ := transferred0 hv
  obtain ⟨r, X⟩ := transferred hv hv'
  exact ⟨v, v', C91_former_violated (R := env) laws0 laws M X0 X (by decide)⟩

end Toy
end Verif.Life
