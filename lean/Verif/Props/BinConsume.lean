import Verif.Props.Consume
import Verif.Props.MgpkRct
/-!
# Property C87 for the binary formats: the CBOR and MessagePack readers take a non-empty front of the input, and their fuel is never felt
-/
namespace Keriox

/-! ## CBOR -/

private theorem drop_suf (n : Nat) (s : Bytes) : s.drop n <:+ s := List.drop_suffix n s

theorem cborArg_suf {i n : Nat} {s r : Bytes} (h : cborArg i s = some (n, r)) : r <:+ s := by
  unfold cborArg at h
  split at h
  · cases h
  · cases h; exact List.suffix_refl _
  · split at h
    · cases h
    · cases h; exact drop_suf _ _

theorem cborStr_suf {i : Nat} {s r x : Bytes} (h : cborStr i s = some (x, r)) : r <:+ s := by
  unfold cborStr at h
  split at h
  · cases h
  · rename_i n r' hA
    split at h
    · cases h
    · split at h
      · cases h; exact (drop_suf _ _).trans (cborArg_suf hA)
      · cases h

theorem cborKey_cut {s r x : Bytes} (h : cborKey s = some (x, r)) : Cut s r := by
  unfold cborKey at h
  split at h
  · cases h
  · split at h
    · exact .cons (cborStr_suf h)
    · cases h

private theorem map_snd {α β γ : Type} {o : Option (α × γ)} {f : α → β} {b : β} {r : γ} (h : (o.map fun p => (f p.1, p.2)) = some (b, r)) :
    ∃ a, o = some (a, r) := by
  cases o with
  | none => cases h
  | some p => obtain ⟨a, r'⟩ := p; cases h; exact ⟨a, rfl⟩

theorem cbor_cut : ∀ n : Nat,
    (∀ d s x r, cborValue n d s = some (x, r) → Cut s r) ∧
    (∀ d k s x r, cborElems n d k s = some (x, r) → r <:+ s) ∧
    (∀ d s x r, cborElemsI n d s = some (x, r) → Cut s r) ∧
    (∀ d k s x r, cborMembers n d k s = (x, some r) → r <:+ s) ∧
    (∀ d s x r, cborMembersI n d s = (x, some r) → Cut s r)
  | 0 => by
    refine ⟨?_, ?_, ?_, ?_, ?_⟩
    · intro d s x r h; rw [cborValue] at h; cases h
    · intro d k s x r h; rw [cborElems] at h; cases h
    · intro d s x r h; rw [cborElemsI] at h; cases h
    · intro d k s x r h; rw [cborMembers] at h; cases h
    · intro d s x r h; rw [cborMembersI] at h; cases h
  | n + 1 => by
    obtain ⟨iv, ie, iei, im, imi⟩ := cbor_cut n
    refine ⟨?_, ?_, ?_, ?_, ?_⟩
    · intro d s x r h
      cases s with
      | nil => rw [cborValue] at h; cases h
      | cons b t =>
        rw [cborValue] at h
        refine .cons ?_
        split at h
        · obtain ⟨a, h⟩ := map_snd h
          exact cborStr_suf h
        split at h
        · split at h
          · cases h
          split at h
          · obtain ⟨a, h⟩ := map_snd h
            exact (iei _ _ _ _ h).1
          · split at h
            · cases h
            · rename_i hA
              obtain ⟨a, h⟩ := map_snd h
              exact (ie _ _ _ _ _ h).trans (cborArg_suf hA)
        split at h
        · split at h
          · cases h
          split at h
          · split at h
            · rename_i hM
              cases h
              exact (imi _ _ _ _ hM).1
            · cases h
          · split at h
            · cases h
            · rename_i hA
              split at h
              · rename_i hM
                cases h
                exact (im _ _ _ _ _ hM).trans (cborArg_suf hA)
              · cases h
        split at h
        · cases h; exact List.suffix_refl _
        split at h
        · cases h; exact List.suffix_refl _
        split at h
        · cases h; exact List.suffix_refl _
        split at h
        · cases hA : cborArg (b.toNat % 32) t with
          | none => rw [hA] at h; cases h
          | some p =>
            obtain ⟨a, r'⟩ := p
            rw [hA] at h; cases h
            exact cborArg_suf hA
        · cases h
    · intro d k s x r h
      cases k with
      | zero => rw [cborElems] at h; cases h; exact List.suffix_refl _
      | succ k =>
        rw [cborElems] at h
        split at h
        · cases h
        · rename_i hv
          cases hE : cborElems n d k _ with
          | none => rw [hE] at h; cases h
          | some p =>
            obtain ⟨xs, r'⟩ := p
            rw [hE] at h; cases h
            exact (ie _ _ _ _ _ hE).trans (iv _ _ _ _ hv).1
    · intro d s x r h
      cases s with
      | nil => rw [cborElemsI] at h; cases h
      | cons b t =>
        rw [cborElemsI] at h
        split at h
        · cases h; exact .cons (List.suffix_refl _)
        · split at h
          · cases h
          · rename_i hv
            cases hE : cborElemsI n d _ with
            | none => rw [hE] at h; cases h
            | some p =>
              obtain ⟨xs, r'⟩ := p
              rw [hE] at h; cases h
              exact (iv _ _ _ _ hv).then (iei _ _ _ _ hE).1
    · intro d k s x r h
      cases k with
      | zero => rw [cborMembers] at h; cases h; exact List.suffix_refl _
      | succ k =>
        rw [cborMembers] at h
        split at h
        · cases h
        · rename_i hK
          split at h
          · cases h
          · rename_i hv
            cases hM : cborMembers n d k _ with
            | mk fs o =>
              rw [hM] at h
              cases h
              exact (im _ _ _ _ _ hM).trans ((iv _ _ _ _ hv).1.trans (cborKey_cut hK).1)
    · intro d s x r h
      cases s with
      | nil => rw [cborMembersI] at h; cases h
      | cons b t =>
        rw [cborMembersI] at h
        split at h
        · cases h; exact .cons (List.suffix_refl _)
        · split at h
          · cases h
          · rename_i hK
            split at h
            · cases h
            · rename_i hv
              cases hM : cborMembersI n d _ with
              | mk fs o =>
                rw [hM] at h
                cases h
                exact (cborKey_cut hK).then ((imi _ _ _ _ hM).1.trans (iv _ _ _ _ hv).1)

theorem cborTop_cut {s r : Bytes} {fs : List (Bytes × JVal)} (h : cborTop s = (fs, some r)) : Cut s r := by
  unfold cborTop at h
  split at h
  · cases h
  · split at h
    · split at h
      · exact .cons ((cbor_cut _).2.2.2.2 _ _ _ _ h).1
      · split at h
        · cases h
        · rename_i hA
          exact .cons (((cbor_cut _).2.2.2.1 _ _ _ _ _ h).trans (cborArg_suf hA))
    · cases h

/-! ## MessagePack -/

theorem mgpkNum_suf {k n : Nat} {s r : Bytes} (h : mgpkNum k s = some (n, r)) : r <:+ s := by
  unfold mgpkNum at h
  split at h
  · cases h
  · cases h; exact drop_suf _ _

theorem mgpkArrLen_suf {b : UInt8} {n : Nat} {s r : Bytes} (h : mgpkArrLen b s = some (n, r)) : r <:+ s := by
  unfold mgpkArrLen at h
  split at h
  · cases h; exact List.suffix_refl _
  split at h
  · exact mgpkNum_suf h
  split at h
  · exact mgpkNum_suf h
  · cases h

theorem mgpkMapLen_suf {b : UInt8} {n : Nat} {s r : Bytes} (h : mgpkMapLen b s = some (n, r)) : r <:+ s := by
  unfold mgpkMapLen at h
  split at h
  · cases h; exact List.suffix_refl _
  split at h
  · exact mgpkNum_suf h
  split at h
  · exact mgpkNum_suf h
  · cases h

theorem mgpkStrLen_suf {b : UInt8} {n : Nat} {s r : Bytes} (h : mgpkStrLen b s = some (n, r)) : r <:+ s := by
  unfold mgpkStrLen at h
  split at h
  · cases h; exact List.suffix_refl _
  split at h
  · exact mgpkNum_suf h
  split at h
  · exact mgpkNum_suf h
  split at h
  · exact mgpkNum_suf h
  · cases h

theorem mgpkStr_cut {s r x : Bytes} (h : mgpkStr s = some (x, r)) : Cut s r := by
  unfold mgpkStr at h
  split at h
  · cases h
  · split at h
    · cases h
    · rename_i hL
      split at h
      · cases h
      · split at h
        · cases h; exact .cons ((drop_suf _ _).trans (mgpkStrLen_suf hL))
        · cases h

theorem mgpk_cut : ∀ n : Nat,
    (∀ d s x r, mgpkValue n d s = some (x, r) → Cut s r) ∧
    (∀ d k s x r, mgpkElems n d k s = some (x, r) → r <:+ s) ∧
    (∀ d k s x r, mgpkMembers n d k s = (x, some r) → r <:+ s)
  | 0 => by
    refine ⟨?_, ?_, ?_⟩
    · intro d s x r h; rw [mgpkValue] at h; cases h
    · intro d k s x r h; rw [mgpkElems] at h; cases h
    · intro d k s x r h; rw [mgpkMembers] at h; cases h
  | n + 1 => by
    obtain ⟨iv, ie, im⟩ := mgpk_cut n
    refine ⟨?_, ?_, ?_⟩
    · intro d s x r h
      cases s with
      | nil => rw [mgpkValue] at h; cases h
      | cons b t =>
        rw [mgpkValue] at h
        split at h
        · cases h; exact .cons (List.suffix_refl _)
        split at h
        · cases h; exact .cons (List.suffix_refl _)
        split at h
        · cases h; exact .cons (List.suffix_refl _)
        split at h
        · rename_i hS
          cases h
          exact mgpkStr_cut hS
        · split at h
          · rename_i hA
            split at h
            · cases h
            · obtain ⟨a, h⟩ := map_snd h
              exact .cons ((ie _ _ _ _ _ h).trans (mgpkArrLen_suf hA))
          · split at h
            · rename_i hA
              split at h
              · cases h
              · split at h
                · rename_i hM
                  cases h
                  exact .cons ((im _ _ _ _ _ hM).trans (mgpkMapLen_suf hA))
                · cases h
            · split at h
              · rename_i k _
                cases hN : mgpkNum k t with
                | none => rw [hN] at h; cases h
                | some p =>
                  obtain ⟨a, r'⟩ := p
                  rw [hN] at h; cases h
                  exact .cons (mgpkNum_suf hN)
              · cases h
    · intro d k s x r h
      cases k with
      | zero => rw [mgpkElems] at h; cases h; exact List.suffix_refl _
      | succ k =>
        rw [mgpkElems] at h
        split at h
        · cases h
        · rename_i hv
          cases hE : mgpkElems n d k _ with
          | none => rw [hE] at h; cases h
          | some p =>
            obtain ⟨xs, r'⟩ := p
            rw [hE] at h; cases h
            exact (ie _ _ _ _ _ hE).trans (iv _ _ _ _ hv).1
    · intro d k s x r h
      cases k with
      | zero => rw [mgpkMembers] at h; cases h; exact List.suffix_refl _
      | succ k =>
        rw [mgpkMembers] at h
        split at h
        · cases h
        · rename_i hK
          split at h
          · cases h
          · rename_i hv
            cases hM : mgpkMembers n d k _ with
            | mk fs o =>
              rw [hM] at h
              cases h
              exact (im _ _ _ _ _ hM).trans ((iv _ _ _ _ hv).1.trans (mgpkStr_cut hK).1)

theorem mgpkTop_cut {s r : Bytes} {fs : List (Bytes × JVal)} (h : mgpkTop s = (fs, some r)) : Cut s r := by
  unfold mgpkTop at h
  split at h
  · cases h
  · split at h
    · cases h
    · rename_i hA
      exact .cons (((mgpk_cut _).2.2 _ _ _ _ _ h).trans (mgpkMapLen_suf hA))

/-! ## Fuel -/

theorem cbor_fuel : ∀ (n m : Nat),
    (∀ d s, 2 * s.length + 1 ≤ n → 2 * s.length + 1 ≤ m → cborValue n d s = cborValue m d s) ∧
    (∀ d k s, 2 * s.length + 2 ≤ n → 2 * s.length + 2 ≤ m → cborElems n d k s = cborElems m d k s) ∧
    (∀ d s, 2 * s.length + 2 ≤ n → 2 * s.length + 2 ≤ m → cborElemsI n d s = cborElemsI m d s) ∧
    (∀ d k s, 2 * s.length + 2 ≤ n → 2 * s.length + 2 ≤ m → cborMembers n d k s = cborMembers m d k s) ∧
    (∀ d s, 2 * s.length + 2 ≤ n → 2 * s.length + 2 ≤ m → cborMembersI n d s = cborMembersI m d s)
  | 0, _ => by refine ⟨?_, ?_, ?_, ?_, ?_⟩ <;> intros <;> omega
  | _ + 1, 0 => by refine ⟨?_, ?_, ?_, ?_, ?_⟩ <;> intros <;> omega
  | n + 1, m + 1 => by
    obtain ⟨iv, ie, iei, im, imi⟩ := cbor_fuel n m
    refine ⟨?_, ?_, ?_, ?_, ?_⟩
    · intro d s hn hm
      cases s with
      | nil => rw [cborValue, cborValue]
      | cons b t =>
        simp only [List.length_cons] at hn hm
        rw [cborValue, cborValue, iei _ t (by omega) (by omega), imi _ t (by omega) (by omega)]
        cases hA : cborArg (b.toNat % 32) t with
        | none => rfl
        | some p =>
          obtain ⟨k, r⟩ := p
          have := (cborArg_suf hA).length_le
          dsimp only
          rw [ie _ k r (by omega) (by omega), im _ k r (by omega) (by omega)]
    · intro d k s hn hm
      cases k with
      | zero => rw [cborElems, cborElems]
      | succ k =>
        rw [cborElems, cborElems, iv _ s (by omega) (by omega)]
        cases hv : cborValue m d s with
        | none => rfl
        | some p =>
          obtain ⟨x, r⟩ := p
          have := ((cbor_cut _).1 _ _ _ _ hv).2
          dsimp only
          rw [ie _ k r (by omega) (by omega)]
    · intro d s hn hm
      cases s with
      | nil => rw [cborElemsI, cborElemsI]
      | cons b t =>
        rw [cborElemsI, cborElemsI, iv _ (b :: t) (by omega) (by omega)]
        cases hv : cborValue m d (b :: t) with
        | none => rfl
        | some p =>
          obtain ⟨x, r⟩ := p
          have := ((cbor_cut _).1 _ _ _ _ hv).2
          dsimp only
          rw [iei _ r (by omega) (by omega)]
    · intro d k s hn hm
      cases k with
      | zero => rw [cborMembers, cborMembers]
      | succ k =>
        rw [cborMembers, cborMembers]
        cases hk : cborKey s with
        | none => rfl
        | some q =>
          obtain ⟨key, r⟩ := q
          have h1 := (cborKey_cut hk).2
          dsimp only
          rw [iv _ r (by omega) (by omega)]
          cases hv : cborValue m d r with
          | none => rfl
          | some p =>
            obtain ⟨x, r'⟩ := p
            have := ((cbor_cut _).1 _ _ _ _ hv).2
            dsimp only
            rw [im _ k r' (by omega) (by omega)]
    · intro d s hn hm
      cases s with
      | nil => rw [cborMembersI, cborMembersI]
      | cons b t =>
        rw [cborMembersI, cborMembersI]
        cases hk : cborKey (b :: t) with
        | none => rfl
        | some q =>
          obtain ⟨key, r⟩ := q
          have h1 := (cborKey_cut hk).2
          dsimp only
          rw [iv _ r (by omega) (by omega)]
          cases hv : cborValue m d r with
          | none => rfl
          | some p =>
            obtain ⟨x, r'⟩ := p
            have := ((cbor_cut _).1 _ _ _ _ hv).2
            dsimp only
            rw [imi _ r' (by omega) (by omega)]

theorem mgpk_fuel : ∀ (n m : Nat),
    (∀ d s, 2 * s.length + 1 ≤ n → 2 * s.length + 1 ≤ m → mgpkValue n d s = mgpkValue m d s) ∧
    (∀ d k s, 2 * s.length + 2 ≤ n → 2 * s.length + 2 ≤ m → mgpkElems n d k s = mgpkElems m d k s) ∧
    (∀ d k s, 2 * s.length + 2 ≤ n → 2 * s.length + 2 ≤ m → mgpkMembers n d k s = mgpkMembers m d k s)
  | 0, _ => by refine ⟨?_, ?_, ?_⟩ <;> intros <;> omega
  | _ + 1, 0 => by refine ⟨?_, ?_, ?_⟩ <;> intros <;> omega
  | n + 1, m + 1 => by
    obtain ⟨iv, ie, im⟩ := mgpk_fuel n m
    refine ⟨?_, ?_, ?_⟩
    · intro d s hn hm
      cases s with
      | nil => rw [mgpkValue, mgpkValue]
      | cons b t =>
        simp only [List.length_cons] at hn hm
        rw [mgpkValue, mgpkValue]
        cases hA : mgpkArrLen b t with
        | some p =>
          obtain ⟨k, r⟩ := p
          have := (mgpkArrLen_suf hA).length_le
          dsimp only
          rw [ie _ k r (by omega) (by omega)]
        | none =>
          cases hM : mgpkMapLen b t with
          | none => rfl
          | some p =>
            obtain ⟨k, r⟩ := p
            have := (mgpkMapLen_suf hM).length_le
            dsimp only
            rw [im _ k r (by omega) (by omega)]
    · intro d k s hn hm
      cases k with
      | zero => rw [mgpkElems, mgpkElems]
      | succ k =>
        rw [mgpkElems, mgpkElems, iv _ s (by omega) (by omega)]
        cases hv : mgpkValue m d s with
        | none => rfl
        | some p =>
          obtain ⟨x, r⟩ := p
          have := ((mgpk_cut _).1 _ _ _ _ hv).2
          dsimp only
          rw [ie _ k r (by omega) (by omega)]
    · intro d k s hn hm
      cases k with
      | zero => rw [mgpkMembers, mgpkMembers]
      | succ k =>
        rw [mgpkMembers, mgpkMembers]
        cases hk : mgpkStr s with
        | none => rfl
        | some q =>
          obtain ⟨key, r⟩ := q
          have h1 := (mgpkStr_cut hk).2
          dsimp only
          rw [iv _ r (by omega) (by omega)]
          cases hv : mgpkValue m d r with
          | none => rfl
          | some p =>
            obtain ⟨x, r'⟩ := p
            have := ((mgpk_cut _).1 _ _ _ _ hv).2
            dsimp only
            rw [im _ k r' (by omega) (by omega)]

/-- C87: the fuel that makes the two readers structurally recursive is never felt: more of it changes nothing, whatever the input. -/
theorem C87_fuel_binary (n depth k : Nat) (s : Bytes) :
    cborMembersI (2 * s.length + 2 + n) depth s = cborMembersI (2 * s.length + 2) depth s ∧
    cborMembers (2 * s.length + 2 + n) depth k s = cborMembers (2 * s.length + 2) depth k s ∧
    mgpkMembers (2 * s.length + 2 + n) depth k s = mgpkMembers (2 * s.length + 2) depth k s :=
  ⟨(cbor_fuel _ _).2.2.2.2 _ _ (by omega) (Nat.le_refl _), (cbor_fuel _ _).2.2.2.1 _ _ _ (by omega) (Nat.le_refl _),
    (mgpk_fuel _ _).2.2 _ _ _ (by omega) (Nat.le_refl _)⟩

/-! ## Messages -/

private theorem desMessage_rest {α : Type} {inner : List (Bytes × JVal) → Res α} {fs : List (Bytes × JVal)} {o : Option Bytes}
    {i : SerInfo} {e : α} {r : Bytes} (h : desMessage inner (fs, o) = .ok (i, e, r)) : o = some r := by
  unfold desMessage at h
  obtain ⟨q, -, h⟩ := Res.bind_eq_ok.1 h
  obtain ⟨x, hx, h⟩ := Res.bind_eq_ok.1 h
  obtain ⟨y, hy, h⟩ := Res.bind_eq_ok.1 h
  obtain ⟨z, hz, h⟩ := Res.bind_eq_ok.1 h
  cases h
  cases o <;> simp_all [Res.ofOption]

/-- C87: a message read from CBOR takes at least one byte from the front of the input and leaves the rest untouched -/
theorem C87_cbor {α : Type} (inner : List (Bytes × JVal) → Res α) (s rest : Bytes) (a : SerInfo × α)
    (h : cborMessage inner s = .ok rest a) : ∃ t, t ≠ [] ∧ s = t ++ rest := by
  unfold cborMessage at h
  split at h <;> cases h
  rename_i hd
  cases ht : cborTop s with
  | mk fs o =>
    rw [ht] at hd
    rw [desMessage_rest hd] at ht
    obtain ⟨⟨t, rfl⟩, hl⟩ := cborTop_cut ht
    exact ⟨t, fun e => by subst e; simp at hl, rfl⟩

/-- C87: so does a message read from MessagePack -/
theorem C87_mgpk {α : Type} (inner : List (Bytes × JVal) → Res α) (s rest : Bytes) (a : SerInfo × α)
    (h : mgpkMessage inner s = .ok rest a) : ∃ t, t ≠ [] ∧ s = t ++ rest := by
  unfold mgpkMessage at h
  split at h <;> cases h
  rename_i hd
  cases ht : mgpkTop s with
  | mk fs o =>
    rw [ht] at hd
    rw [desMessage_rest hd] at ht
    obtain ⟨⟨t, rfl⟩, hl⟩ := mgpkTop_cut ht
    exact ⟨t, fun e => by subst e; simp at hl, rfl⟩

private theorem eats_of {α : Type} {s : Bytes} {x : IRes α} (h : ∀ r a, x = .ok r a → ∃ t, t ≠ [] ∧ s = t ++ r) : Eats s x := by
  intro r a hx
  obtain ⟨t, ht, rfl⟩ := h r a hx
  refine ⟨⟨t, rfl⟩, ?_⟩
  have := List.length_pos_iff.2 ht
  rw [List.length_append]; omega

/-- the modelled readers meet the hypothesis of C87 -/
theorem binReaders_eats : Ex.binReaders.Eats := by
  refine ⟨fun s => ?_, fun s => ?_⟩
  · show Eats s (if _ then _ else _)
    split
    · exact eats_of fun r a => C87_cbor _ s r a
    · split
      · exact eats_of fun r a => C87_mgpk _ s r a
      · intro r a h; cases h
  · show Eats s (if _ then _ else _)
    split
    · exact eats_of fun r a => C87_cbor _ s r a
    · split
      · exact eats_of fun r a => C87_mgpk _ s r a
      · intro r a h; cases h

/-- C87: with the modelled readers of all three formats, the input of every successful stream parse is cut into one non-empty piece per
message, in order, and the bytes left over. -/
theorem C87_all_formats (s : Bytes) (ds : List SignedEventData) (rest : Bytes) (h : signedEventStreamP Ex.binReaders s = .ok rest ds) :
    (∃ ts : List Bytes, s = ts.flatten ++ rest ∧ ts.length = ds.length ∧ ∀ t ∈ ts, t ≠ []) ∧ ds.length ≤ s.length :=
  C87_pieces _ binReaders_eats s ds rest h

end Keriox
