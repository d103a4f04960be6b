import Verif.Props.Reply

/-! C90: checking a signature on arbitrary data with the processor's `verify`. -/

namespace Keriox

theorem verifySignature_complete {env : Env} {as : List Action} {data : Bytes} {s : Signature} (hs : s.signer.toStr ≠ [])
    (h : SignatureOk env (after env as).kel data s) (hr : ∀ sl sigs, s = .transferable sl sigs → Readable ((after env as).kel sl.prefix)) :
    (verifySignature mapOps env data s (after env as).abs).1 = .ok () := by
  unfold verifySignature
  cases s with
  | nonTransferable k g =>
    dsimp only
    rw [stm_ok_bind (show StM.lift (k.verify env data g) (after env as).abs = (.ok true, _) by rw [(verify_iff_sigValid env k data g).2 h]; rfl)]
    rfl
  | transferable sl sigs =>
    obtain ⟨v, kc, g1, g2, g3, g4⟩ := h
    dsimp only
    have hev : (getEventAtSn mapOps sl.prefix sl.sn (after env as).abs).1 = .ok (((after env as).kel sl.prefix)[sl.sn]?) := by
      rw [← (getEventAtSn_sim sled_sim sl.prefix sl.sn _ (after_inv env as)).1]
      rcases getEventAtSn_spec env as sl.prefix hs sl.sn with h | h
      · exact h.1
      · exact absurd (hr sl sigs rfl) h.2
    have hg : (getKeysAtEvent mapOps env sl.prefix sl.sn sl.eventDigest (after env as).abs).1 = .ok (some kc) := by
      unfold getKeysAtEvent
      rw [g1] at hev
      rw [StM.bind_run, StM.result_ok (pair_of_fst hev)]
      dsimp only
      rw [stm_ok_bind (show StM.lift (v.msg.checkDigest env sl.eventDigest) _ = (.ok true, _) by rw [names_checkDigest g2]; rfl), if_pos rfl, g3]
      rfl
    rw [stm_ok_bind (pair_of_fst hg)]
    dsimp only
    rw [stm_ok_bind (show StM.lift (kc.verify env data sigs) _ = (.ok true, _) by rw [verify_of_validSigs g4]; rfl)]
    rfl

/-- C90: in every reachable database, `verify` accepts a signature on any data exactly if it is valid: made by the given key, or, for a seal, by the keys
that the logged event named by the seal has established (and the log of the sealed identifier can be read). -/
theorem C90_exact (env : Env) (as : List Action) (data : Bytes) (s : Signature) (hs : s.signer.toStr ≠ []) :
    (verifySignature sled env data s (after env as)).1 = .ok () ↔
      SignatureOk env (after env as).kel data s ∧ ∀ sl sigs, s = .transferable sl sigs → Readable ((after env as).kel sl.prefix) := by
  rw [(verifySignature_sim sled_sim env data s _ (after_inv env as)).1]
  constructor
  · intro h
    refine ⟨verifySignature_ok (after_good env as) hs h, fun sl sigs he => ?_⟩
    subst he
    unfold verifySignature at h
    dsimp only at h
    obtain ⟨o, a1, h1, _⟩ := bind_ok_inv h
    obtain ⟨v, kc, g1, _⟩ := getKeysAtEvent_ok h1
    rcases getEventAtSn_spec env as sl.prefix hs sl.sn with h | h
    · exact h.2
    · rw [← (getEventAtSn_sim sled_sim sl.prefix sl.sn _ (after_inv env as)).1, h.1] at g1
      cases g1
  · exact fun h => verifySignature_complete hs h.1 h.2

/-- C90: `verify` stores nothing: every table has the same contents afterwards. -/
theorem C90_unchanged (env : Env) (as : List Action) (data : Bytes) (s : Signature) (t : Tbl) (x : Bytes) :
    (verifySignature sled env data s (after env as)).2.vec t x = (after env as).vec t x := by
  have h1 := (verifySignature_sim sled_sim env data s _ (after_inv env as)).2
  have h2 := verifySignature_ro env data s (after env as).abs
  have h3 : (verifySignature sled env data s (after env as)).2.abs.tables t x = (after env as).abs.tables t x := by
    rw [h1.1, h2]
  exact h3

/-- C90: a signature that verified keeps verifying, whatever is submitted later, as long as the log can be read; in particular after its keys have been
rotated away. -/
theorem C90_for_ever (env : Env) (as bs : List Action) (data : Bytes) (s : Signature) (hs : s.signer.toStr ≠ [])
    (h : (verifySignature sled env data s (after env as)).1 = .ok ())
    (hr : ∀ sl sigs, s = .transferable sl sigs → Readable ((after env (as ++ bs)).kel sl.prefix)) :
    (verifySignature sled env data s (after env (as ++ bs))).1 = .ok () := by
  obtain ⟨h1, _⟩ := (C90_exact env as data s hs).1 h
  refine (C90_exact env _ data s hs).2 ⟨?_, hr⟩
  cases s with
  | nonTransferable k g => exact h1
  | transferable sl sigs =>
    obtain ⟨v, kc, g1, g2⟩ := h1
    refine ⟨v, kc, ?_, g2⟩
    obtain ⟨rest, hp⟩ := C01_append_only env as bs sl.prefix hs
    rw [← hp, List.getElem?_append_left (List.getElem?_eq_some_iff.1 g1).1]
    exact g1

/-- C90, what it does not mean: a verified signature need not be by keys that are still in force. The keys of a superseded establishment event are
accepted for new data, through its seal, or, one of them alone, presented as a non-transferable signer. -/
theorem C90_fails_current : ¬ ∀ (env : Env) (as : List Action) (data : Bytes) (sl : EventSeal) (sigs : List AttachedSignaturePrefix) (st : IdState),
    (computeState sled env sl.prefix (after env as)).1 = .ok (some st) →
    (verifySignature sled env data (.transferable sl sigs) (after env as)).1 = .ok () → ValidSigs env st.current data sigs := by
  intro h
  have h1 : (match (computeState sled Ex.env Ex.id (after Ex.env Ex.hist)).1 with
      | .ok (some st) => !decide (st.current.verify Ex.env b!"new" [Ex.sig 1 0 b!"new", Ex.sig 2 1 b!"new"] = .ok true) | _ => false) = true := by decide +kernel
  split at h1
  · rename_i st hc
    have hv := h Ex.env Ex.hist b!"new" ⟨Ex.id, 0, Ex.icp.dig⟩ [Ex.sig 1 0 b!"new", Ex.sig 2 1 b!"new"] st hc (by decide +kernel)
    rw [verify_of_validSigs hv] at h1
    simp at h1
  · cases h1

/-- C90, the same for a signature without a seal: the check does not look at any log, so a key that was rotated away passes as a signer of its own. -/
theorem C90_no_seal (env : Env) (as : List Action) (data : Bytes) (k : BasicPrefix) (sig : SelfSigningPrefix) :
    (verifySignature sled env data (.nonTransferable k sig) (after env as)).1 = .ok () ↔ SigValid env k data sig := by
  rw [← verify_iff_sigValid]
  unfold verifySignature
  dsimp only
  cases h : k.verify env data sig with
  | err e => exact ⟨fun h => (by cases h), fun h => (by cases h)⟩
  | panic => exact ⟨fun h => (by cases h), fun h => (by cases h)⟩
  | ok b =>
    cases b with
    | false => exact ⟨fun h => (by cases h), fun h => (by cases h)⟩
    | true => exact ⟨fun _ => rfl, fun _ => rfl⟩

open Ex in
/-- the hypotheses of C90_for_ever are met by a signature that is made before the rotation of its keys -/
example : let s : Signature := .transferable ⟨id, 0, icp.dig⟩ [sig 1 0 b!"new", sig 2 1 b!"new"]
    s.signer.toStr ≠ [] ∧ (verifySignature sled env b!"new" s (after env [.submit (.event icp)])).1 = .ok () ∧
    (∀ sl sigs, s = .transferable sl sigs → Readable ((after env ([.submit (.event icp)] ++ [.submit (.event rot), .submit (.event ixn)])).kel sl.prefix)) := by
  refine ⟨by decide +kernel, by decide +kernel, ?_⟩
  rintro _ _ ⟨⟩
  unfold Readable; decide +kernel

end Keriox
