import Verif.Props.Forge
import Verif.Props.Commit
/-! C96: rotating to the committed keys only?  The commitment does not keep strangers from rotating an identifier to keys of their own. -/
namespace Keriox
open KeyConfig

/-! ## Specification -/

/-- the event is accepted in the name of `id` and changes its keys to `kc`; from then on no other event with its sequence number can be accepted -/
structure TakenOver (env : Env) (as : List Action) (id : IdentifierPrefix) (e : SignedEvent) (kc : KeyConfig) : Prop where
  accepted : ∃ new, (process sled env (.event e) (after env as)).1 = .ok (some new) ∧ new.current = kc
  stored : (after env (as ++ [.submit (.event e)])).kel id = (after env as).kel id ++ [e]
  shutOut : ∀ f : SignedEvent, f.pre.toStr = id.toStr → f.sn = ((after env as).kel id).length →
    ∀ st, (process sled env (.event f) (after env (as ++ [.submit (.event e)]))).1 ≠ .ok st

/-! ## Proof -/

/-- a rotation to `kc` with the signatures `f` makes on its text -/
theorem steal {env : Env} {as : List Action} {id : IdentifierPrefix} (hid : id.toStr ≠ []) (hne : (after env as).kel id ≠ [])
    (hr : Readable ((after env as).kel id)) {s : IdState} (hs : (computeState sled env id (after env as)).1 = .ok (some s)) (hdel : s.delegator = none)
    {kc : KeyConfig} (hv : s.current.verifyNext env kc = true) (f : Bytes → List AttachedSignaturePrefix) (hf : ∀ b, ValidSigs env kc b (f b)) :
    ∃ e b, e.msg.serialize env = .ok b ∧ e.sigs = f b ∧ TakenOver env as id e kc := by
  obtain ⟨s', hl, hc⟩ := computeState_log env as id hid hne hr
  rw [hc] at hs
  obtain rfl : s' = s := by simpa using hs
  have F := (hl.facts hid).2.1 hne
  obtain ⟨new, ha, hn, _⟩ := rot_applies (env := env) (s := s') (e := ⟨s'.prefix, s'.sn + 1, .rot ⟨s'.lastDigest, kc, 0, [], [], []⟩⟩) rfl rfl rfl rfl hdel hv
    (saidJson env _) rfl
  have hb := json_serialize env (saidJson env ⟨s'.prefix, s'.sn + 1, .rot ⟨s'.lastDigest, kc, 0, [], [], []⟩⟩) rfl
  generalize hm : saidJson env ⟨s'.prefix, s'.sn + 1, .rot ⟨s'.lastDigest, kc, 0, [], [], []⟩⟩ = m at *
  have hcon : m.event.content = ⟨s'.prefix, s'.sn + 1, .rot ⟨s'.lastDigest, kc, 0, [], [], []⟩⟩ := by rw [← hm]; rfl
  generalize jsonText m.sval = b at hb
  let e : SignedEvent := ⟨m, f b, none⟩
  have hp : e.pre.toStr = id.toStr := by show m.event.content.prefix.toStr = _; rw [hcon]; exact F.2.1
  have acc := accepts env as e (by rw [hp]; exact hid) s' new b (by rw [kel_text _ hp, hp]; exact hl) (by rw [kel_text _ hp]; exact hr)
    (plain_checkDelegation env e _ (.inr (.inl ⟨_, by show m.event.content.data = _; rw [hcon]⟩))) ha hb
    (by rw [hn]; exact verify_of_validSigs (hf b))
  refine ⟨e, b, hb, rfl, ⟨new, acc.1, hn⟩, ?_, ?_⟩
  · have := acc.2
    rw [kel_text _ hp, kel_text _ hp] at this
    exact this
  · intro g hg hsn st hacc
    obtain ⟨s2, new2, _, _, hl2, _, _, hap2, _⟩ := accepted_inv env _ g (by rw [hg]; exact hid) st hacc
    have hk : (after env (as ++ [.submit (.event e)])).kel g.pre = (after env as).kel id ++ [e] := by
      rw [kel_text _ hg, ← kel_text _ hp, acc.2, kel_text _ hp]; rfl
    rw [hk, hg] at hl2
    have A := applyTo_ok hap2
    have F2 := (hl2.facts hid).2.1 (by simp)
    by_cases hi : g.data.isInception = true
    · exact F2.1 (A.incPre hi)
    · have := A.nextSn (by simpa using hi)
      have hlen := F2.2.2.1
      simp only [List.length_append, List.length_cons, List.length_nil] at hlen
      omega

theorem commit_pairs (env : Env) (c : SelfAddressing) (n : Nat) (hl : FixedLen env c n) (t : Threshold) (ks : List BasicPrefix) (x : BasicPrefix) (m : Nat) :
    nxtCommitment env t (List.replicate (2 * m) x ++ ks) c = nxtCommitment env t ks c := by
  rw [C06_fails_order env t _ (ks ++ List.replicate (2 * m) x) c List.perm_append_comm]
  induction m with
  | zero => simp
  | succ m ih =>
    rw [show 2 * (m + 1) = 2 * m + 1 + 1 by omega, List.replicate_succ', List.replicate_succ', List.append_assoc, ← List.append_assoc ks]
    rw [List.singleton_append, C06_fails_pairs env c n hl, ih]

/-! ## C96 -/

/-- C96 fails: whoever knows the public keys an identifier will rotate to (anyone who sees the owner's rotation before others do) can rotate it to keys of
their own, without any signature of the owner: let the owner have committed to the keys `ks` with a threshold all of them together satisfy; let the stranger be able to sign with
the key `x`, and choose any next commitment `nx`.  Then there is a rotation, with one signature of `x` for each of the owner's keys and no other, that every processor with
the owner's current log accepts.  The stranger's key is then in control, the next keys are the stranger's choice, and the owner's own rotation is refused. -/
theorem C96_fails_for_all (env : Env) (as : List Action) (id : IdentifierPrefix) (hid : id.toStr ≠ []) (hne : (after env as).kel id ≠ [])
    (hr : Readable ((after env as).kel id)) (s : IdState) (hs : (computeState sled env id (after env as)).1 = .ok (some s)) (hdel : s.delegator = none)
    (c : SelfAddressing) (n : Nat) (hl : FixedLen env c n) (t : Threshold) (ks : List BasicPrefix) (hc : s.current.nextDigest = some (nxtCommitment env t ks c))
    (hfull : ∀ sigs : List AttachedSignaturePrefix, sigs.map (·.index) = List.range ks.length → t.MetBy sigs)
    (x : BasicPrefix) (sign : Bytes → SelfSigningPrefix) (hx : ∀ b, SigValid env x b (sign b)) (nx : Option SelfAddressingPrefix) :
    ∃ e b, e.msg.serialize env = .ok b ∧ e.sigs = (List.range ks.length).map (fun i => ⟨i, sign b⟩) ∧
      TakenOver env as id e ⟨t, List.replicate (2 * ks.length) x ++ ks, nx⟩ := by
  refine steal hid hne hr hs hdel ?_ (fun b => (List.range ks.length).map (fun i => ⟨i, sign b⟩)) (fun b => ⟨?_, ?_, ?_⟩)
  · unfold KeyConfig.verifyNext KeyConfig.commit
    rw [hc]
    have hder : (nxtCommitment env t ks c).derivation = c := by rw [nxtCommitment_closed env t ks c n hl]
    dsimp only
    rw [hder, commit_pairs env c n hl]
    simp
  · simp only [List.map_map]
    rw [show ((fun s : AttachedSignaturePrefix => s.index) ∘ fun i => (⟨i, sign b⟩ : AttachedSignaturePrefix)) = fun i => i from rfl, List.map_id']
    exact List.nodup_range
  · intro sg hsg
    obtain ⟨i, hi, rfl⟩ := List.mem_map.1 hsg
    have hlt := List.mem_range.1 hi
    refine ⟨x, ?_, hx b⟩
    show (List.replicate (2 * ks.length) x ++ ks)[i]? = some x
    rw [List.getElem?_append_left (by rw [List.length_replicate]; omega), List.getElem?_replicate, if_pos (by omega)]
  · refine hfull _ ?_
    simp only [List.map_map]
    rw [show ((fun s : AttachedSignaturePrefix => s.index) ∘ fun i => (⟨i, sign b⟩ : AttachedSignaturePrefix)) = fun i => i from rfl, List.map_id']

/-- C96 fails without knowing the owner's next keys either: with keys `mine` whose digests span the digest space (a few hundred random keys do) and one key `x` to sign
with, a stranger can rotate every identifier with a commitment, whatever it commits to, by one signature. -/
theorem C96_fails_blind (env : Env) (as : List Action) (id : IdentifierPrefix) (hid : id.toStr ≠ []) (hne : (after env as).kel id ≠ [])
    (hr : Readable ((after env as).kel id)) (s : IdState) (hs : (computeState sled env id (after env as)).1 = .ok (some s)) (hdel : s.delegator = none)
    (d : SelfAddressingPrefix) (n : Nat) (hl : FixedLen env d.derivation n) (hd : d.digest.length = n) (hc : s.current.nextDigest = some d)
    (mine : List BasicPrefix)
    (hspan : ∀ i, i < n → ∀ j, j < 8 → ∃ ks, (∀ k ∈ ks, k ∈ mine) ∧ keyXor env d.derivation n ks = unitAt n i (UInt8.ofNat (2 ^ j)))
    (x : BasicPrefix) (sign : Bytes → SelfSigningPrefix) (hx : ∀ b, SigValid env x b (sign b)) (nx : Option SelfAddressingPrefix) :
    ∃ e b ks, (∀ k ∈ ks, k ∈ x :: mine) ∧ e.msg.serialize env = .ok b ∧ e.sigs = [⟨0, sign b⟩] ∧ TakenOver env as id e ⟨.simple 1, ks, nx⟩ := by
  obtain ⟨ks, h1, h2⟩ := C06_fails_chosen_keys env d.derivation n hl mine hspan d.digest hd (.simple 1)
  have hcom : nxtCommitment env (.simple 1) (List.replicate (2 * 1) x ++ ks) d.derivation = d := by
    rw [commit_pairs env d.derivation n hl, h2]
  obtain ⟨e, b, g1, g2, g3⟩ := steal (kc := ⟨.simple 1, List.replicate (2 * 1) x ++ ks, nx⟩) hid hne hr hs hdel (by
    unfold KeyConfig.verifyNext KeyConfig.commit
    rw [hc]
    dsimp only
    rw [hcom]
    simp) (fun b => [⟨0, sign b⟩]) (fun b => ⟨by simp, by
      intro sg hsg
      rw [List.mem_singleton.1 hsg]
      exact ⟨x, rfl, hx b⟩, by simp [Threshold.MetBy]⟩)
  refine ⟨e, b, _, ?_, g1, g2, g3⟩
  intro k hk
  rcases List.mem_append.1 hk with hk | hk
  · rw [(List.mem_replicate.1 hk).2]; simp
  · exact List.mem_cons_of_mem _ (h1 k hk)

open Ex in
/-- the hypotheses of C96_fails_for_all are met at every stage of the example: three next keys, any two of which must sign -/
example : (after env hist).kel id ≠ [] ∧ Readable ((after env hist).kel id) ∧
    (∃ s, (computeState sled env id (after env hist)).1 = .ok (some s) ∧ s.delegator = none ∧
      s.current.nextDigest = some (nxtCommitment env (.simple 2) [key 7, key 8, key 9] .blake3_256)) ∧ FixedLen env .blake3_256 32 ∧
    (∀ sigs : List AttachedSignaturePrefix, sigs.map (·.index) = List.range 3 → (Threshold.simple 2).MetBy sigs) ∧
    (∀ b, SigValid env (key 99) b ⟨.ed25519Sha512, List.replicate 32 99 ++ dig b⟩) := by
  refine ⟨by decide +kernel, by unfold Readable; decide +kernel, ⟨{ rotState with sn := 2, lastDigest := ixn.dig }, by decide +kernel, rfl, rfl⟩, dig_length, ?_, ?_⟩
  · intro sigs h
    have := congrArg List.length h
    simp only [List.length_map, List.length_range] at this
    show 2 ≤ sigs.length
    omega
  · intro b
    exact .inl ⟨.inl rfl, rfl, by simp [env, key]⟩

/-- the hypothesis about spanning keys is met in the example of `C06_fails_chosen_keys` -/
example : FixedLen byteEnv .blake3_256 1 := by intro d; rfl

end Keriox
