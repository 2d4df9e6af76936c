import Verif.Model.Monitor

/-!
# C226: the number of values that a processor of chunks reports
-/

namespace Verif.Monitor
open Verif

/-- an operation that is not a `for` loop over the processor -/
def Op.direct : Op → Bool
  | .forLoop _ => false
  | _ => true

/-- what is kept by the operations: the count and what is left are the whole; the attribute is there only when nothing is left -/
def Inv (total : Nat) (p : Proc) : Prop := p.count + p.left.sum = total ∧ (p.done = none ∨ p.done = some true ∧ p.left = [])

theorem inv_step {total : Nat} {p : Proc} (h : Inv total p) {o : Op} (ho : o.direct = true) : Inv total (step p o) := by
  cases o with
  | forLoop n => cases ho
  | final => exact h
  | next =>
    obtain ⟨left, done, count⟩ := p
    obtain ⟨hc, hd⟩ := h
    cases left with
    | nil => exact ⟨hc, .inr ⟨rfl, rfl⟩⟩
    | cons c cs =>
      refine ⟨?_, ?_⟩
      · show count + c + cs.sum = total
        simp only [List.sum_cons] at hc
        omega
      · rcases hd with hd | ⟨-, hd⟩
        · exact .inl hd
        · cases hd

theorem inv_run {total : Nat} (ops : List Op) {p : Proc} (h : Inv total p) (ho : ∀ o ∈ ops, o.direct = true) : Inv total (run p ops) := by
  induction ops generalizing p with
  | nil => exact h
  | cons o os ih => exact ih (inv_step h (ho o (List.mem_cons_self ..))) fun o h => ho o (List.mem_cons_of_mem _ h)

/-- a processor of a class that can be instantiated, stepped with `next` only, in any history: if it gives a result, the result is the number of values of all chunks -/
theorem C226_count_partial (names : List String) (chunks : List Nat) (p : Proc) (h : new names chunks = .ok p) (ops : List Op) (ho : ∀ o ∈ ops, o.direct = true) (n : Nat)
    (hf : final (run p ops) = .ok n) : n = chunks.sum := by
  have hp : p = ⟨chunks, none, 0⟩ := by
    unfold new at h
    split at h
    · cases h; rfl
    · cases h
  subst hp
  have hi := inv_run (total := chunks.sum) (p := ⟨chunks, none, 0⟩) ops ⟨by simp, .inl rfl⟩ ho
  obtain ⟨hc, hd⟩ := hi
  unfold final at hf
  rcases hd with hd | ⟨hd, hl⟩
  · simp only [hd] at hf
    cases hf
  · simp only [hd] at hf
    cases hf
    rw [hl] at hc
    simpa using hc

/-- after the last chunk `next` stops, and the result is there -/
theorem C226_exhausted (names : List String) (chunks : List Nat) (p : Proc) (h : new names chunks = .ok p) :
    final (run p (List.replicate (chunks.length + 1) .next)) = .ok chunks.sum := by
  have hp : p = ⟨chunks, none, 0⟩ := by
    unfold new at h
    split at h
    · cases h; rfl
    · cases h
  subst hp
  have key : ∀ (l : List Nat) (c : Nat), run ⟨l, none, c⟩ (List.replicate (l.length + 1) .next) = ⟨[], some true, c + l.sum⟩ := by
    intro l
    induction l with
    | nil => intro c; rfl
    | cons a l ih =>
      intro c
      show run ⟨l, none, c + a⟩ (List.replicate (l.length + 1) .next) = _
      rw [ih]
      simp [Nat.add_assoc]
  rw [key]
  simp [final]

example : ∃ p, new ["dtype", "maxshape"] [3, 4, 0, 2] = .ok p ∧ final (run p (List.replicate 5 .next)) = .ok 9 := ⟨⟨[3, 4, 0, 2], none, 0⟩, by decide +kernel, by decide +kernel⟩

/-- a `for` loop over a processor sees the chunks and counts nothing: whatever its length, the count is the same and there is no result after it -/
theorem C226_for_loop (p : Proc) (n : Nat) : (run p [.forLoop n]).count = p.count ∧ (run p [.forLoop n]).done = p.done ∧ (forLoop p n).2 ++ (run p [.forLoop n]).left = p.left :=
  ⟨rfl, rfl, List.take_append_drop n p.left⟩

/-- the counter of the library cannot be created, whatever the data -/
theorem C226_abstract_fails (chunks : List Nat) : new [] chunks = .error .typeError := by
  have h : ((abstractNames ++ processorAbstract).all fun a => (([] : List String) ++ counterNames ++ processorNames).contains a) = false := by decide +kernel
  unfold new
  rw [h]
  rfl

/-- before the end `get_final_result` does not raise `NotYetExhausted` -/
theorem C226_not_yet_fails (names : List String) (chunks : List Nat) (p : Proc) (h : new names chunks = .ok p) (k : Nat) (hk : k ≤ chunks.length) :
    final (run p (List.replicate k .next)) = .error .attributeError := by
  have hp : p = ⟨chunks, none, 0⟩ := by
    unfold new at h
    split at h
    · cases h; rfl
    · cases h
  subst hp
  have key : ∀ (k : Nat) (l : List Nat) (c : Nat), k ≤ l.length → (run ⟨l, none, c⟩ (List.replicate k .next)).done = none := by
    intro k
    induction k with
    | zero => intro l c _; rfl
    | succ k ih =>
      intro l c hk
      cases l with
      | nil => cases hk
      | cons a l => exact ih l (c + a) (Nat.le_of_succ_le_succ hk)
  unfold final
  rw [key k chunks 0 hk]

/-- chunks that a `for` loop took are missing from the count -/
theorem C226_for_loop_fails : (new ["dtype", "maxshape"] [3, 4]).toOption.map (fun p => final (run p [.forLoop 2, .next])) = some (.ok 0) := by decide +kernel

end Verif.Monitor
