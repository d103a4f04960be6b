import Verif.Props.Async
/-!
# C92: what the stream processor does with a stream
-/
namespace Keriox
open Async

/-! ## Specification -/

/-- what has been passed on, one message after the other -/
def Async.St.behind {σ : Type} (s : St σ) : Bytes := (s.sent.map (·.2)).flatten

/-- what has not been dealt with yet: the rest of the buffer, then what the reader will still deliver -/
def Async.St.ahead {σ : Type} (s : St σ) : Bytes := s.buf.drop s.processed ++ s.chunks.flatten

/-- the messages are answered one after the other, each on the database the one before left, with these answers, to these identifiers, the last one
leaving that database -/
inductive Answered {σ : Type} (cfg : Cfg σ) (db : σ) : List (IdentifierPrefix × Bytes) → List Reply → σ → Prop where
  | none : Answered cfg db [] [] db
  | next {ms rs d to msg rep d'} : Answered cfg db ms rs d → answer cfg msg d = (.ok (to, rep), d') →
      Answered cfg db (ms ++ [(to, msg)]) (rs ++ [rep]) d'

/-- the state a turn leads to, finished or not -/
def Async.Turn.state {σ : Type} : Turn σ → St σ
  | .go s => s
  | .stop _ s => s

/-- a writer that takes every write -/
def Takes (w : List Write) : Prop := ∀ x ∈ w, ∃ n, x = .took n

/-! ## Proof -/

variable {σ : Type}

/-- nothing of the stream is lost, and the buffer is not overrun -/
def Streamed (all : Bytes) (s : St σ) : Prop := s.behind ++ s.ahead = all ∧ s.processed ≤ s.buf.length

theorem fill_streamed {all : Bytes} {s : St σ} (h : Streamed all s) : Streamed all (fill s) := by
  unfold fill
  split
  · rename_i he
    have hb : s.buf = [] := List.isEmpty_iff.1 he
    obtain ⟨h1, h2⟩ := h
    rw [hb] at h2
    have hp : s.processed = 0 := by simpa using h2
    split
    · exact ⟨h1, by rw [hb]; exact h2⟩
    · rename_i c cs hc
      refine ⟨?_, by simp [hp]⟩
      rw [← h1]
      unfold St.behind St.ahead
      dsimp only
      rw [hb, hp, hc]
      congr 1
      by_cases hl : c.length ≤ 8192
      · rw [if_pos hl, List.take_of_length_le hl]
        rfl
      · rw [if_neg hl]
        simp [← List.append_assoc]
  · exact h

theorem slice_ok {s : Bytes} {a b : Nat} {m : Bytes} (h : slice s a b = .ok m) : a ≤ b ∧ b ≤ s.length ∧ m = (s.drop a).take (b - a) := by
  unfold slice at h
  split at h
  · rename_i hh; cases h; exact ⟨hh.1, hh.2, rfl⟩
  · cases h

theorem deliver_streamed {all : Bytes} {s : St σ} (h : Streamed all s) {n : Nat} {msg : Bytes} (hs : slice s.buf s.processed (s.processed + n) = .ok msg)
    (to : IdentifierPrefix) (rep : Reply) : Streamed all (deliver s n msg to rep).state := by
  obtain ⟨h1, h2⟩ := h
  obtain ⟨_, hb, hm⟩ := slice_ok hs
  have key : ∀ (w : List Write) (o : Option Nat), Streamed all
      ({ s with writer := w, written := s.written ++ [(rep, o)], sent := s.sent ++ [(to, msg)], processed := s.processed + n } : St σ) := by
    intro w o
    refine ⟨?_, hb⟩
    rw [← h1]
    unfold St.behind St.ahead
    dsimp only
    rw [List.map_append, List.flatten_append, List.append_assoc]
    congr 1
    simp only [List.map_cons, List.map_nil, List.flatten_cons, List.flatten_nil, List.append_nil]
    rw [← List.append_assoc, hm, show s.processed + n - s.processed = n by omega, ← List.drop_drop, List.take_append_drop]
  unfold deliver
  cases s.writer with
  | nil => exact key _ _
  | cons x w =>
    cases x with
    | took k => exact key _ _
    | pending => exact ⟨h1, h2⟩
    | failed => exact ⟨h1, h2⟩

theorem turnMessage_streamed {all : Bytes} (cfg : Cfg σ) {s : St σ} (h : Streamed all s) : Streamed all (turnMessage cfg s).state := by
  unfold turnMessage
  cases frame cfg.binVer cfg.firstByte s.buf s.processed with
  | panic => exact h
  | err e => exact h
  | ok f =>
    cases f with
    | again => exact h
    | length n =>
      dsimp only
      cases hs : slice s.buf s.processed (s.processed + n) with
      | panic => exact h
      | err e => exact h
      | ok msg =>
        dsimp only
        rcases answer cfg msg s.db with ⟨r, db⟩
        cases r with
        | panic => exact h
        | err e => exact h
        | ok p => exact deliver_streamed (s := { s with db := db }) h hs p.1 p.2

theorem turn_streamed {all : Bytes} (cfg : Cfg σ) {s : St σ} (h : Streamed all s) : Streamed all (turn cfg s).state := by
  unfold turn
  split
  · exact h
  split
  · split
    · exact turnMessage_streamed cfg h
    · rename_i hp
      obtain ⟨h1, h2⟩ := h
      refine ⟨?_, Nat.le_refl _⟩
      rw [← h1]
      unfold St.behind St.ahead Turn.state
      dsimp only
      rw [List.drop_eq_nil_of_le (by omega : s.buf.length ≤ s.processed)]
      rfl
  · have hf := fill_streamed h
    dsimp only
    split
    · split <;> exact hf
    · split <;> exact hf

theorem run_streamed {all : Bytes} (cfg : Cfg σ) (n : Nat) {s : St σ} (h : Streamed all s) : Streamed all (run cfg n s).state := by
  induction n generalizing s with
  | zero => exact h
  | succ n ih =>
    have ht := turn_streamed cfg h
    rw [run]
    cases he : turn cfg s with
    | go s' => rw [he] at ht; exact ih ht
    | stop r s' => rw [he] at ht; exact ht

/-- C92: at every moment, whatever arrives in whatever pieces and however the writer behaves, what was passed on and what is still to be looked at make
up the stream: nothing was skipped, repeated or cut. -/
theorem C92_nothing_lost (cfg : Cfg σ) (chunks : List Bytes) (ending : Ending) (writer : List Write) (db : σ) (n : Nat) :
    (run cfg n (start chunks ending writer db)).state.behind ++ (run cfg n (start chunks ending writer db)).state.ahead = chunks.flatten :=
  (run_streamed cfg n (s := start chunks ending writer db) ⟨by simp [start, St.behind, St.ahead], Nat.le_refl _⟩).1

theorem fill_empty {s : St σ} (h : (fill s).buf = []) (hne : ∀ c ∈ s.chunks, c ≠ []) : s.buf = [] ∧ s.chunks = [] := by
  unfold fill at h
  split at h
  · rename_i he
    have hb : s.buf = [] := List.isEmpty_iff.1 he
    refine ⟨hb, ?_⟩
    cases hc : s.chunks with
    | nil => rfl
    | cons c cs =>
      rw [hc] at h
      dsimp only at h
      rw [List.take_eq_nil_iff] at h
      rcases h with h | h
      · omega
      · exact absurd h (hne c (by rw [hc]; simp))
  · rename_i he
    exact absurd (List.isEmpty_iff.2 h) he

theorem turn_chunks (cfg : Cfg σ) {s : St σ} (h : ∀ c ∈ s.chunks, c ≠ []) : ∀ c ∈ (turn cfg s).state.chunks, c ≠ [] := by
  have hfill : ∀ c ∈ (fill s).chunks, c ≠ [] := by
    unfold fill
    split
    · split
      · exact h
      · rename_i c cs hc
        dsimp only
        split
        · exact fun x hx => h x (by rw [hc]; exact List.mem_cons_of_mem _ hx)
        · rename_i hl
          intro x hx
          rcases List.mem_cons.1 hx with rfl | hx
          · intro he
            have := congrArg List.length he
            simp at this
            omega
          · exact h x (by rw [hc]; exact List.mem_cons_of_mem _ hx)
    · exact h
  unfold turn
  split
  · exact h
  split
  · split
    · unfold turnMessage
      cases frame cfg.binVer cfg.firstByte s.buf s.processed with
      | panic => exact h
      | err e => exact h
      | ok f =>
        cases f with
        | again => exact h
        | length n =>
          dsimp only
          cases hs : slice s.buf s.processed (s.processed + n) with
          | panic => exact h
          | err e => exact h
          | ok msg =>
            dsimp only
            rcases answer cfg msg s.db with ⟨r, db⟩
            cases r with
            | panic => exact h
            | err e => exact h
            | ok p =>
              show ∀ c ∈ (deliver { s with db := db } n msg p.1 p.2).state.chunks, c ≠ []
              unfold deliver
              dsimp only
              cases s.writer with
              | nil => exact h
              | cons x w => cases x <;> exact h
    · exact h
  · dsimp only
    split
    · split <;> exact hfill
    · split <;> exact hfill

theorem turn_done {cfg : Cfg σ} {s s' : St σ} (hne : ∀ c ∈ s.chunks, c ≠ []) (h : turn cfg s = .stop .done s') :
    s'.buf = [] ∧ s'.chunks = [] := by
  unfold turn at h
  split at h
  · cases h
  split at h
  · split at h
    · unfold turnMessage at h
      split at h
      · cases h
      · cases h
      · cases h
      · split at h
        · split at h
          · cases h
          · cases h
          · unfold deliver at h
            dsimp only at h
            split at h <;> cases h
        · cases h
    · cases h
  · dsimp only at h
    split at h
    · rename_i he
      have hb := List.isEmpty_iff.1 he
      obtain ⟨h1, h2⟩ := fill_empty hb hne
      have hf : (fill s).chunks = [] := by
        unfold fill
        rw [if_pos (by rw [h1]; rfl), h2]
        exact h2
      split at h
      · cases h; exact ⟨hb, hf⟩
      · cases h; exact ⟨hb, hf⟩
      · cases h
      · cases h
    · split at h <;> cases h

/-- C92: when it ends well, the whole stream has been passed on (an empty read is taken for the end, so the pieces are assumed not to be empty). -/
theorem C92_all_passed_on (cfg : Cfg σ) (chunks : List Bytes) (hne : ∀ c ∈ chunks, c ≠ []) (ending : Ending) (writer : List Write) (db : σ) (n : Nat) (s : St σ)
    (h : run cfg n (start chunks ending writer db) = .stop .done s) : s.behind = chunks.flatten := by
  have key : ∀ (n : Nat) (s0 : St σ), (∀ c ∈ s0.chunks, c ≠ []) → run cfg n s0 = .stop .done s → s.buf = [] ∧ s.chunks = [] := by
    intro n
    induction n with
    | zero => intro s0 _ h; cases h
    | succ n ih =>
      intro s0 h0 h
      have hc := turn_chunks cfg h0
      rw [run] at h
      cases ht : turn cfg s0 with
      | go s' => rw [ht] at h hc; exact ih s' hc h
      | stop r s' =>
        rw [ht] at h
        cases h
        exact turn_done h0 ht
  obtain ⟨h1, h2⟩ := key n _ hne h
  have := C92_nothing_lost cfg chunks ending writer db n
  rw [h] at this
  rw [← this]
  simp [Turn.state, St.ahead, h1, h2]

/-- everything so far was answered in order -/
def InStep (cfg : Cfg σ) (db : σ) (s : St σ) : Prop := Answered cfg db s.sent (s.written.map (·.1)) s.db ∧ Takes s.writer

theorem turn_inStep (cfg : Cfg σ) (db : σ) {s s' : St σ} (h : InStep cfg db s) (ht : turn cfg s = .go s') : InStep cfg db s' := by
  have hfill : InStep cfg db (fill s) := by
    unfold fill
    split
    · split <;> exact h
    · exact h
  unfold turn at ht
  split at ht
  · cases ht
  split at ht
  · split at ht
    · unfold turnMessage at ht
      split at ht
      · cases ht
      · cases ht
      · cases ht; exact h
      · split at ht
        · split at ht
          · cases ht
          · cases ht
          · rename_i hs _ to rep d ha
            obtain ⟨h1, h2⟩ := h
            unfold deliver at ht
            dsimp only at ht
            split at ht
            · cases ht
              refine ⟨?_, fun x hx => (by cases hx)⟩
              dsimp only
              rw [List.map_append]
              exact .next h1 ha
            · rename_i hw
              cases ht
              refine ⟨?_, fun x hx => h2 x (by rw [hw]; exact List.mem_cons_of_mem _ hx)⟩
              dsimp only
              rw [List.map_append]
              exact .next h1 ha
            · rename_i hw
              obtain ⟨k, hk⟩ := h2 .pending (by rw [hw]; simp)
              cases hk
            · cases ht
        · cases ht
    · cases ht; exact h
  · dsimp only at ht
    split at ht
    · split at ht <;> cases ht
    · split at ht <;> (cases ht; exact hfill)

theorem turn_stop_inStep (cfg : Cfg σ) (db : σ) {s s' : St σ} (h : InStep cfg db s) (ht : turn cfg s = .stop .done s') : InStep cfg db s' := by
  have hfill : InStep cfg db (fill s) := by
    unfold fill
    split
    · split <;> exact h
    · exact h
  unfold turn at ht
  split at ht
  · cases ht
  split at ht
  · split at ht
    · unfold turnMessage at ht
      split at ht
      · cases ht
      · cases ht
      · cases ht
      · split at ht
        · split at ht
          · cases ht
          · cases ht
          · unfold deliver at ht
            dsimp only at ht
            split at ht <;> cases ht
        · cases ht
    · cases ht
  · dsimp only at ht
    split at ht
    · split at ht <;> first | (cases ht; exact hfill) | cases ht
    · split at ht <;> cases ht

/-- C92: with a writer that takes every write, what is passed on was answered in that order, each message once, each on the database the one before left,
and the answers are what was written, in the same order. -/
theorem C92_in_order (cfg : Cfg σ) (chunks : List Bytes) (ending : Ending) (writer : List Write) (hw : Takes writer) (db : σ) (n : Nat) :
    match run cfg n (start chunks ending writer db) with
    | .go s => Answered cfg db s.sent (s.written.map (·.1)) s.db
    | .stop .done s => Answered cfg db s.sent (s.written.map (·.1)) s.db
    | _ => True := by
  have key : ∀ (n : Nat) (s0 : St σ), InStep cfg db s0 → (match run cfg n s0 with
    | .go s => InStep cfg db s
    | .stop .done s => InStep cfg db s
    | _ => True) := by
    intro n
    induction n with
    | zero => exact fun s0 h => h
    | succ n ih =>
      intro s0 h
      rw [run]
      cases ht : turn cfg s0 with
      | go s' => exact ih s' (turn_inStep cfg db h ht)
      | stop r s' =>
        dsimp only
        cases r with
        | done => exact turn_stop_inStep cfg db h ht
        | failed => trivial
        | panicked => trivial
        | waiting => trivial
  have h := key n (start chunks ending writer db) ⟨.none, hw⟩
  revert h
  cases run cfg n (start chunks ending writer db) with
  | go s => exact fun h => h.1
  | stop r s =>
    cases r with
    | done => exact fun h => h.1
    | failed => exact fun h => h
    | panicked => exact fun h => h
    | waiting => exact fun h => h

/-- a run that ends well after passing a message on, in the hypotheses of all three -/
example : (match run Ex.stream 10 (start [Ex.cesr Ex.overstated] .closed [.took 1] Db.empty) with
      | .stop .done s => decide (s.behind = Ex.cesr Ex.overstated ∧ s.sent.length = 1 ∧ s.written.length = 1 ∧ (s.db.kel (.basic (Ex.key 9))).length = 1)
      | _ => false) = true ∧ (∀ c ∈ [Ex.cesr Ex.overstated], c ≠ []) ∧ Takes [Write.took 1] := by
  refine ⟨by decide +kernel, by decide +kernel, ?_⟩
  intro x hx
  rw [List.mem_singleton.1 hx]
  exact ⟨1, rfl⟩

end Keriox
