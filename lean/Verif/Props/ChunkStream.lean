import Verif.Base.Tac
import Verif.Model.ChunkStream

/-!
# Properties of `DataChunkIterator` and the write queue: C09, C10, C66
-/

namespace Verif.ChunkStream
open Verif

variable {α : Type}

/-! ### Specification -/

/-- The items of a stream with their positions, counting from `k`: gaps take up a position but hold nothing. -/
def itemsFrom (k : Nat) : List (Option α) → List (Nat × α)
  | [] => []
  | none :: s => itemsFrom (k + 1) s
  | some x :: s => (k, x) :: itemsFrom (k + 1) s

/-- the (position, item) pairs a chunk describes -/
def cells (k : Nat) : List α → List (Nat × α)
  | [] => []
  | x :: xs => (k, x) :: cells (k + 1) xs

/-- everything written when the chunks are written at their selections, in order -/
def written (cs : List (Chunk α)) : List (Nat × α) := cs.flatMap fun c => cells c.start c.data

/-! ### Auxiliary -/

private theorem itemsFrom_append (k : Nat) (a b : List (Option α)) :
    itemsFrom k (a ++ b) = itemsFrom k a ++ itemsFrom (k + a.length) b := by
  induction a generalizing k with
  | nil => simp [itemsFrom]
  | cons x a ih =>
    have e : k + 1 + a.length = k + (a.length + 1) := by omega
    cases x <;> simp [itemsFrom, ih, e]

private theorem cells_append (k : Nat) (a b : List α) : cells k (a ++ b) = cells k a ++ cells (k + a.length) b := by
  induction a generalizing k with
  | nil => simp [cells]
  | cons x a ih =>
    have e : k + 1 + a.length = k + (a.length + 1) := by omega
    simp [cells, ih, e]

private theorem readLoop_spec (buf : Nat) (s0 : Nat) : ∀ (ds : List (Option α)) (pieces : List α) (off : Nat),
    let r := readLoop buf ds pieces off
    let stop := s0 + r.2.1 + r.1.length
    cells (s0 + off) pieces ++ itemsFrom (s0 + off + pieces.length) ds
      = cells (s0 + r.2.1) r.1 ++ itemsFrom (if r.2.2.1 then stop + 1 else stop) r.2.2.2
    ∧ (r.1 = [] → 0 < buf → r.2.2.2 = [])
    ∧ (pieces.length ≤ buf → r.1.length ≤ buf)
    ∧ (r.2.2.2.length ≤ ds.length) ∧ (pieces ≠ [] → r.1 ≠ [])
    ∧ (0 < buf → pieces = [] → ds ≠ [] → r.2.2.2.length < ds.length) := by
  intro ds
  induction ds with
  | nil => intro pieces off; simp [readLoop]
  | cons d ds ih =>
    intro pieces off
    by_cases hb : pieces.length < buf
    · cases d with
      | none =>
        by_cases hp : pieces.length = 0
        · have hp' : pieces = [] := List.length_eq_zero_iff.1 hp
          subst hp'
          have h := ih [] (off + 1)
          have hb0 : 0 < buf := hb
          simp only [readLoop, hb0, if_true, List.length_nil] at h ⊢
          obtain ⟨h1, h2, h3, h4, h5, h6⟩ := h
          refine ⟨?_, h2, h3, by simp; omega, by simp, fun _ _ _ => by simp; omega⟩
          rw [← h1]
          simp only [cells, itemsFrom, List.nil_append]
          congr 1
        · have hp' : pieces ≠ [] := fun h => hp (by simp [h])
          simp only [readLoop, hb, if_true, hp, if_false]
          refine ⟨?_, fun h => absurd h hp', fun h => h, by simp, fun h => h, fun _ h => absurd h hp'⟩
          simp [itemsFrom]
      | some x =>
        have h := ih (pieces ++ [x]) off
        simp only [readLoop, hb, if_true] at h ⊢
        obtain ⟨h1, h2, h3, h4, h5, h6⟩ := h
        refine ⟨?_, h2, fun _ => h3 (by simp; omega), by simp; omega, fun _ => h5 (by simp),
          fun _ _ _ => by simp; omega⟩
        rw [← h1, cells_append]
        simp only [cells, itemsFrom, List.append_assoc, List.cons_append, List.nil_append, List.length_append,
          List.length_cons, List.length_nil]
        rfl
    · simp only [readLoop, hb, if_false]
      refine ⟨by simp, fun h hb0 => ?_, fun h => h, Nat.le_refl _, fun h => h, fun hb0 h => ?_⟩
      · simp [h] at hb; omega
      · simp [h] at hb; omega

/-- what is pending in the state: the chunk read ahead and the unread stream -/
private def pending (s : State α) : List (Nat × α) :=
  (match s.next with | some c => cells c.start c.data | none => []) ++ itemsFrom s.start s.rest

private def Good (buf : Nat) (s : State α) : Prop := ∀ c, s.next = some c → c.data ≠ [] ∧ c.data.length ≤ buf

private theorem readNext_spec {buf : Nat} (hb : 0 < buf) (s : State α) (hn : s.next = none) :
    pending (readNext buf s) = pending s ∧ Good buf (readNext buf s) ∧
    ((readNext buf s).next = none → (readNext buf s).rest = []) ∧
    (readNext buf s).rest.length ≤ s.rest.length ∧
    (s.rest ≠ [] → (readNext buf s).rest.length < s.rest.length) := by
  have h := readLoop_spec buf s.start s.rest [] 0
  unfold readNext
  generalize readLoop buf s.rest [] 0 = r at h
  obtain ⟨pieces, off, re, rest⟩ := r
  simp only [cells, List.nil_append, List.length_nil, Nat.add_zero] at h ⊢
  obtain ⟨h1, h2, h3, h4, -, h6⟩ := h
  by_cases hp : pieces = []
  · subst hp
    have hr := h2 rfl hb
    subst hr
    simp only [List.length_nil, if_true]
    refine ⟨?_, by intro c hc; simp at hc, fun _ => trivial, by simp, fun h => h6 hb trivial h⟩
    simp only [pending, hn, List.nil_append]
    rw [h1]; simp [cells, itemsFrom]
  · have hp0 : pieces.length ≠ 0 := fun h => hp (List.length_eq_zero_iff.1 h)
    simp only [hp0, if_false]
    refine ⟨?_, ?_, by simp, h4, fun h => h6 hb trivial h⟩
    · simp only [pending, hn, List.nil_append]
      rw [h1]
    · intro c hc
      simp only [Option.some.injEq] at hc
      subst hc
      exact ⟨hp, h3 (Nat.zero_le _)⟩

private theorem init_spec {buf : Nat} (hb : 0 < buf) (stream : List (Option α)) (dt sk : Bool) :
    pending (init buf stream dt sk) = itemsFrom 0 stream ∧ Good buf (init buf stream dt sk) := by
  unfold init
  cases dt with
  | true => exact ⟨by simp [pending], by intro c hc; simp at hc⟩
  | false =>
    obtain ⟨h1, h2, -⟩ := readNext_spec hb (⟨stream, none, 0, sk⟩ : State α) rfl
    exact ⟨by rw [if_neg (by simp), h1]; simp [pending], by rw [if_neg (by simp)]; exact h2⟩

private theorem pull_spec {buf : Nat} (hb : 0 < buf) (s : State α) (hg : Good buf s) :
    Good buf (pull buf s).1 ∧
    (match (pull buf s).2 with
      | some c => c.data ≠ [] ∧ c.data.length ≤ buf ∧ pending s = cells c.start c.data ++ pending (pull buf s).1
      | none => pending s = [] ∧ pending (pull buf s).1 = []) := by
  have key : ∀ s1 : State α, Good buf s1 → (s1.next = none → s1.rest = []) →
      let r : State α × Option (Chunk α) := match s1.next with
        | none => (s1, none)
        | some c => ({ s1 with next := none }, some c)
      Good buf r.1 ∧ (match r.2 with
      | some c => c.data ≠ [] ∧ c.data.length ≤ buf ∧ pending s1 = cells c.start c.data ++ pending r.1
      | none => pending s1 = [] ∧ pending r.1 = []) := by
    intro s1 hg1 hr
    cases hn : s1.next with
    | none =>
      have := hr hn
      refine ⟨hg1, ?_, ?_⟩ <;> simp [pending, hn, this, itemsFrom]
    | some c =>
      refine ⟨by intro c hc; simp at hc, (hg1 c hn).1, (hg1 c hn).2, ?_⟩
      simp [pending, hn]
  unfold pull
  by_cases hn : s.next = none
  · obtain ⟨h1, h2, h3, -⟩ := readNext_spec hb s hn
    have := key (readNext buf s) h2 h3
    simp only [hn, Option.isNone_none, if_true]
    rw [← h1]
    exact this
  · obtain ⟨c, hc⟩ := Option.ne_none_iff_exists'.1 hn
    have := key s hg (fun h => absurd h hn)
    simpa [hc] using this

private theorem peek_spec {buf : Nat} (hb : 0 < buf) (s : State α) (hg : Good buf s) :
    Good buf (peek buf s) ∧ pending (peek buf s) = pending s := by
  unfold peek
  split
  · exact ⟨hg, rfl⟩
  · split
    · rename_i hn
      obtain ⟨h1, h2, -⟩ := readNext_spec hb s (by simpa using hn)
      exact ⟨h2, h1⟩
    · exact ⟨hg, rfl⟩

private theorem run_spec {buf : Nat} (hb : 0 < buf) : ∀ (ops : List Op) (s : State α), Good buf s →
    Good buf (run buf s ops).1 ∧ pending s = written (run buf s ops).2 ++ pending (run buf s ops).1 ∧
    ∀ c ∈ (run buf s ops).2, c.data ≠ [] ∧ c.data.length ≤ buf := by
  intro ops
  induction ops with
  | nil => intro s hg; exact ⟨hg, by simp [run, written], by simp [run]⟩
  | cons op ops ih =>
    intro s hg
    cases op with
    | peek =>
      obtain ⟨h1, h2⟩ := peek_spec hb s hg
      obtain ⟨i1, i2, i3⟩ := ih (peek buf s) h1
      refine ⟨i1, ?_, i3⟩
      rw [← h2]; exact i2
    | pull =>
      obtain ⟨h1, h2⟩ := pull_spec hb s hg
      obtain ⟨i1, i2, i3⟩ := ih (pull buf s).1 h1
      simp only [run, step]
      cases hp : (pull buf s).2 with
      | none =>
        rw [hp] at h2
        refine ⟨i1, ?_, i3⟩
        rw [h2.1, ← h2.2]; exact i2
      | some c =>
        rw [hp] at h2
        refine ⟨i1, ?_, ?_⟩
        · rw [h2.2.2, i2]; simp [written]
        · intro c' hc'
          rcases List.mem_cons.1 hc' with rfl | hc'
          · exact ⟨h2.1, h2.2.1⟩
          · exact i3 c' hc'

/-! ### C09 -/

/-- **C09 (nothing lost, moved or invented at any point).** After any history of `next` and `maxshape` calls, what has been
yielded so far, written at the chunks' selections, is an initial part of the stream's items at their own positions (the
k-th item at position k; gaps leave their positions untouched), in the order of the stream.  Each chunk is non-empty and
holds at most `buffer_size` items.  Holds whether or not dtype and shape were given (i.e. whether a chunk is read ahead
in the constructor). -/
theorem C09_prefix (buf : Nat) (hb : 0 < buf) (stream : List (Option α)) (dtypeGiven shapeKnown : Bool)
    (ops : List Op) :
    let out := (run buf (init buf stream dtypeGiven shapeKnown) ops).2
    written out <+: itemsFrom 0 stream ∧ ∀ c ∈ out, c.data ≠ [] ∧ c.data.length ≤ buf := by
  obtain ⟨h1, h2⟩ := init_spec hb stream dtypeGiven shapeKnown
  obtain ⟨-, i2, i3⟩ := run_spec hb ops _ h2
  refine ⟨?_, i3⟩
  rw [← h1, i2]
  exact List.prefix_append _ _

/-- **C09 (complete on exhaustion).** Whenever `next` raises StopIteration, after any history, all items have been
yielded: writing the yielded chunks writes exactly the items of the stream at their positions. -/
theorem C09_complete (buf : Nat) (hb : 0 < buf) (stream : List (Option α)) (dtypeGiven shapeKnown : Bool)
    (ops : List Op)
    (hstop : (pull buf (run buf (init buf stream dtypeGiven shapeKnown) ops).1).2 = none) :
    written (run buf (init buf stream dtypeGiven shapeKnown) ops).2 = itemsFrom 0 stream := by
  obtain ⟨h1, h2⟩ := init_spec hb stream dtypeGiven shapeKnown
  obtain ⟨i1, i2, -⟩ := run_spec hb ops _ h2
  obtain ⟨-, h⟩ := pull_spec hb _ i1
  rw [hstop] at h
  rw [← h1, i2, h.1, List.append_nil]

private theorem written_length (cs : List (Chunk α)) (h : ∀ c ∈ cs, c.data ≠ []) : cs.length ≤ (written cs).length := by
  have hc : ∀ (k : Nat) (l : List α), (cells k l).length = l.length := by
    intro k l; induction l generalizing k with
    | nil => rfl
    | cons x l ih => simp [cells, ih]
  induction cs with
  | nil => simp
  | cons c cs ih =>
    have h0 : 0 < c.data.length := List.length_pos_iff.2 (h c (by simp))
    have := ih (fun c hc => h c (by simp [hc]))
    simp only [written, List.flatMap_cons, List.length_append, hc, List.length_cons] at *
    omega

private theorem items_length (k : Nat) (l : List (Option α)) : (itemsFrom k l).length ≤ l.length := by
  induction l generalizing k with
  | nil => simp [itemsFrom]
  | cons x l ih =>
    cases x with
    | none => have := ih (k + 1); simp only [itemsFrom, List.length_cons]; omega
    | some x => have := ih (k + 1); simp only [itemsFrom, List.length_cons]; omega

private theorem run_stopped {buf : Nat} (hb : 0 < buf) : ∀ (n : Nat) (s : State α), Good buf s →
    (run buf s (List.replicate n .pull)).2.length < n →
    (pull buf (run buf s (List.replicate n .pull)).1).2 = none := by
  intro n
  induction n with
  | zero => intro s _ h; omega
  | succ n ih =>
    intro s hg hl
    obtain ⟨h1, h2⟩ := pull_spec hb s hg
    simp only [List.replicate_succ, run, step] at hl ⊢
    cases hp : (pull buf s).2 with
    | some c => rw [hp] at hl; exact ih _ h1 (by simpa using hl)
    | none =>
      rw [hp] at hl h2
      obtain ⟨j1, j2, j3⟩ := run_spec hb (List.replicate n .pull) _ h1
      rw [h2.2] at j2
      obtain ⟨-, k2⟩ := pull_spec hb _ j1
      cases hq : (pull buf (run buf (pull buf s).1 (List.replicate n Op.pull)).1).2 with
      | none => rfl
      | some c =>
        rw [hq] at k2
        have e := (List.append_eq_nil_iff.1 j2.symm).2
        rw [k2.2.2] at e
        have := (List.append_eq_nil_iff.1 e).1
        cases hd : c.data with
        | nil => exact absurd hd k2.1
        | cons x xs => rw [hd] at this; simp [cells] at this

/-- **C09 (terminates).** A `for` loop over the iterator ends: after at most as many `next` calls as the stream has items
plus one, StopIteration is raised, and the chunks yielded by the loop hold exactly the stream's items. -/
theorem C09_terminates (buf : Nat) (hb : 0 < buf) (stream : List (Option α)) (dtypeGiven shapeKnown : Bool) :
    let r := run buf (init buf stream dtypeGiven shapeKnown) (List.replicate (stream.length + 1) .pull)
    (pull buf r.1).2 = none ∧ written r.2 = itemsFrom 0 stream := by
  obtain ⟨h1, h2⟩ := init_spec hb stream dtypeGiven shapeKnown
  obtain ⟨hpre, hne⟩ := C09_prefix buf hb stream dtypeGiven shapeKnown (List.replicate (stream.length + 1) .pull)
  have hl : (run buf (init buf stream dtypeGiven shapeKnown) (List.replicate (stream.length + 1) .pull)).2.length
      < stream.length + 1 := by
    have a := written_length _ (fun c hc => (hne c hc).1)
    have b := hpre.length_le
    have c := items_length 0 stream
    omega
  have hstop := run_stopped hb (stream.length + 1) _ h2 hl
  exact ⟨hstop, C09_complete buf hb stream dtypeGiven shapeKnown _ hstop⟩

example : (run 2 (init 2 [none, some 1, none, some 2, some 3, some 4, none] false false)
    [.peek, .pull, .peek, .pull, .pull, .pull]).2 = [⟨1, [1]⟩, ⟨3, [2, 3]⟩, ⟨5, [4]⟩] := by decide

private theorem items_ge (k : Nat) (l : List (Option α)) : ∀ x ∈ itemsFrom k l, k ≤ x.1 := by
  induction l generalizing k with
  | nil => simp [itemsFrom]
  | cons o l ih =>
    intro x hx
    cases o with
    | none => have := ih (k + 1) x hx; omega
    | some y =>
      simp only [itemsFrom, List.mem_cons] at hx
      rcases hx with rfl | hx
      · exact Nat.le_refl _
      · have := ih (k + 1) x hx; omega

/-- The specification says what it should: position `k` holds `x` iff the k-th item of the stream is `x`, and positions
are strictly increasing (so no position is written twice). -/
theorem C09_spec_meaning (stream : List (Option α)) :
    (∀ (k : Nat) (x : α), (k, x) ∈ itemsFrom 0 stream ↔ stream[k]? = some (some x)) ∧
    (itemsFrom 0 stream).Pairwise (fun a b => a.1 < b.1) := by
  have key : ∀ (l : List (Option α)) (j : Nat),
      (∀ (k : Nat) (x : α), (j + k, x) ∈ itemsFrom j l ↔ l[k]? = some (some x)) ∧
      (itemsFrom j l).Pairwise (fun a b => a.1 < b.1) := by
    intro l
    induction l with
    | nil => intro j; simp [itemsFrom]
    | cons o l ih =>
      intro j
      obtain ⟨h1, h2⟩ := ih (j + 1)
      have hge := items_ge (j + 1) l
      cases o with
      | none =>
        refine ⟨fun k x => ?_, h2⟩
        cases k with
        | zero =>
          simp only [itemsFrom, List.getElem?_cons_zero]
          constructor
          · intro hx; have := hge _ hx; simp at this
          · intro hx; simp at hx
        | succ k =>
          have := h1 k x
          rw [show j + (k + 1) = j + 1 + k by omega]
          simpa [itemsFrom] using this
      | some y =>
        refine ⟨fun k x => ?_, ?_⟩
        · cases k with
          | zero =>
            simp only [itemsFrom, List.getElem?_cons_zero, List.mem_cons]
            constructor
            · rintro (hx | hx)
              · simp at hx; simp [hx]
              · have := hge _ hx; simp at this
            · intro hx; simp at hx; simp [hx]
          | succ k =>
            have := h1 k x
            rw [show j + (k + 1) = j + 1 + k by omega]
            simp only [itemsFrom, List.mem_cons, List.getElem?_cons_succ, ← this]
            constructor
            · rintro (hx | hx)
              · simp at hx; omega
              · exact hx
            · exact Or.inr
        · exact List.pairwise_cons.2 ⟨fun x hx => by have := hge x hx; simp; omega, h2⟩
  have := key stream 0
  simpa using this

private theorem h5_pull_none {data : List α} {buf : Nat} (i : Nat) :
    h5Pull data buf ⟨i, none⟩ = if i * buf ≥ data.length then (⟨i + 1, none⟩, none)
      else (⟨i + 1, none⟩, some ⟨i * buf, (data.drop (i * buf)).take (min (i * buf + buf) data.length - i * buf)⟩) := by
  unfold h5Pull h5Read
  by_cases h : i * buf ≥ data.length <;> simp [h]

private theorem itemsFrom_some (k : Nat) (l : List α) : itemsFrom k (l.map some) = cells k l := by
  induction l generalizing k with
  | nil => rfl
  | cons x l ih => simp [itemsFrom, cells, ih]

private theorem h5_run (data : List α) (buf : Nat) (hb : 0 < buf) : ∀ (n i : Nat),
    data.length ≤ (i + n) * buf →
    written (h5Run data buf ⟨i, none⟩ n).2 = cells (i * buf) (data.drop (i * buf)) := by
  intro n
  induction n with
  | zero =>
    intro i h
    have : data.drop (i * buf) = [] := List.drop_eq_nil_of_le (by simpa using h)
    rw [this]; simp [h5Run, written, cells]
  | succ n ih =>
    intro i h
    have hi := ih (i + 1) (by rw [show i + 1 + n = i + (n + 1) by omega]; exact h)
    simp only [h5Run]
    rw [h5_pull_none]
    by_cases hc : i * buf ≥ data.length
    · have e1 : data.drop (i * buf) = [] := List.drop_eq_nil_of_le hc
      have e2 : data.drop ((i + 1) * buf) = [] := List.drop_eq_nil_of_le (le_trans hc (Nat.mul_le_mul_right _ (by omega)))
      simp only [hc, if_true]
      rw [hi, e1, e2]; rfl
    · simp only [hc, if_false]
      show cells (i * buf) _ ++ written (h5Run data buf ⟨i + 1, none⟩ n).2 = _
      rw [hi]
      have hsplit : data.drop (i * buf) = (data.drop (i * buf)).take (min (i * buf + buf) data.length - i * buf)
          ++ data.drop ((i + 1) * buf) := by
        conv_lhs => rw [← List.take_append_drop (min (i * buf + buf) data.length - i * buf) (data.drop (i * buf))]
        congr 1
        rw [List.drop_drop]
        have e : (i + 1) * buf = i * buf + buf := by ring
        rcases Nat.le_total (i * buf + buf) data.length with hl | hl
        · rw [Nat.min_eq_left hl, e]; congr 1; omega
        · rw [Nat.min_eq_right hl, List.drop_eq_nil_of_le (by omega), List.drop_eq_nil_of_le (by omega)]
      conv_rhs => rw [hsplit, cells_append]
      congr 1
      rw [List.length_take, List.length_drop]
      have e : (i + 1) * buf = i * buf + buf := by ring
      rcases Nat.le_total (i * buf + buf) data.length with hl | hl
      · congr 1; rw [Nat.min_eq_left hl]; omega
      · rw [List.drop_eq_nil_of_le (by omega)]; rfl

/-- **C09 (HDF5 source).** With an HDF5 dataset as the source, enough `next` calls yield exactly the dataset's elements at
their own positions, whether or not the first chunk was read in the constructor. -/
theorem C09_h5_source (data : List α) (buf : Nat) (hb : 0 < buf) (dtypeGiven : Bool) (n : Nat)
    (hn : data.length ≤ n * buf) :
    let s0 : H5State α := ⟨0, none⟩
    written (h5Run data buf (if dtypeGiven then s0 else h5Read data buf s0) n).2 = itemsFrom 0 (data.map some) := by
  rw [itemsFrom_some]
  have h0 := h5_run data buf hb n 0 (by simpa using hn)
  simp only [Nat.zero_mul, List.drop_zero] at h0
  cases dtypeGiven with
  | true => exact h0
  | false =>
    show written (h5Run data buf (h5Read data buf ⟨0, none⟩) n).2 = _
    cases n with
    | zero =>
      have : data = [] := List.length_eq_zero_iff.1 (by simpa using hn)
      subst this; rfl
    | succ n =>
      rw [← h0]
      have : h5Pull data buf (h5Read data buf ⟨0, none⟩) = h5Pull data buf ⟨0, none⟩ ∨ data = [] := by
        by_cases hd : data = []
        · exact Or.inr hd
        · left
          have : ¬ (0 * buf ≥ data.length) := by
            have := List.length_pos_iff.2 hd; omega
          rw [h5_pull_none, if_neg this]
          unfold h5Pull h5Read
          simp [hd]
      rcases this with h | h
      · simp only [h5Run]; rw [h]
      · subst h
        have key : ∀ (m i : Nat), (h5Run ([] : List α) buf ⟨i, none⟩ m).2 = [] := by
          intro m
          induction m with
          | zero => intro i; rfl
          | succ m ih => intro i; simp only [h5Run]; rw [h5_pull_none]; simp [ih]
        have e : h5Read ([] : List α) buf ⟨0, none⟩ = ⟨1, none⟩ := by simp [h5Read]
        rw [e, key, key]

example : (h5Run [10, 11, 12, 13, 14] 2 (h5Read [10, 11, 12, 13, 14] 2 ⟨0, none⟩) 4).2
    = [⟨0, [10, 11]⟩, ⟨2, [12, 13]⟩, ⟨4, [14]⟩] := by decide

/-! ### C10 -/

section Queue
variable {χ δ : Type}

/-- remaining work: one iteration per chunk plus one per queue entry -/
def work (q : List (Nat × List χ)) : Nat := (q.map fun p => p.2.length + 1).sum

private theorem qStep_work (w : δ → χ → δ) (s s' : QState χ δ) (h : qStep w s = some s') :
    work s'.queue + 1 = work s.queue := by
  unfold qStep at h
  split at h
  · simp at h
  · rename_i hq; simp at h; subst h; rw [hq]; simp [work]; omega
  · rename_i hq; simp at h; subst h; rw [hq]; simp [work, List.sum_append]; omega

/-- **C10 (termination).** For every queue of finite iterators the round-robin loop ends with an empty queue, after one
iteration per chunk and one per queue entry. -/
theorem C10_terminates (w : δ → χ → δ) (s : QState χ δ) (n : Nat) (hn : work s.queue ≤ n) :
    (exhaust w n s).queue = [] := by
  induction n generalizing s with
  | zero =>
    have : work s.queue = 0 := by omega
    cases hq : s.queue with
    | nil => simp [exhaust, hq]
    | cons p q => rw [hq] at this; simp [work] at this
  | succ n ih =>
    simp only [exhaust]
    cases h : qStep w s with
    | none =>
      unfold qStep at h
      split at h
      · assumption
      · simp at h
      · simp at h
    | some s' => exact ih s' (by have := qStep_work w s s' h; omega)

/-- the chunks queued for dataset `d` (in queue order; only one entry if datasets are distinct) -/
def chunksFor (d : Nat) (q : List (Nat × List χ)) : List χ :=
  match q.find? (fun p => p.1 == d) with
  | some p => p.2
  | none => []

private theorem find_append_single (q : List (Nat × List χ)) (d e : Nat) (cs : List χ) :
    chunksFor d (q ++ [(e, cs)]) =
      if (q.find? (fun p => p.1 == d)).isSome then chunksFor d q else if e = d then cs else [] := by
  unfold chunksFor
  rw [List.find?_append]
  cases h : q.find? (fun p => p.1 == d) with
  | some p => simp
  | none => by_cases he : e = d <;> simp [he]

private theorem find_none_of {q : List (Nat × List χ)} {d : Nat} (h : d ∉ q.map Prod.fst) :
    q.find? (fun p => p.1 == d) = none := by
  rw [List.find?_eq_none]
  intro p hp hc
  exact h (List.mem_map.2 ⟨p, hp, by simpa using hc⟩)

private theorem qStep_inv (w : δ → χ → δ) (s s' : QState χ δ) (h : qStep w s = some s')
    (hnd : (s.queue.map Prod.fst).Nodup) :
    (s'.queue.map Prod.fst).Nodup ∧
    ∀ d, (chunksFor d s'.queue).foldl w (s'.store d) = (chunksFor d s.queue).foldl w (s.store d) := by
  unfold qStep at h
  split at h
  · simp at h
  · rename_i e q hq
    simp at h; subst h
    rw [hq] at hnd ⊢
    simp only [List.map_cons, List.nodup_cons] at hnd
    refine ⟨hnd.2, fun d => ?_⟩
    by_cases hd : e = d
    · subst hd; simp [chunksFor, find_none_of hnd.1]
    · simp [chunksFor, hd]
  · rename_i e c cs q hq
    simp at h; subst h
    rw [hq] at hnd ⊢
    simp only [List.map_cons, List.nodup_cons] at hnd
    refine ⟨?_, fun d => ?_⟩
    · simp only [List.map_append, List.map_cons, List.map_nil]
      exact List.nodup_append.2 ⟨hnd.2, by simp, fun a ha b hb => by
        simp at hb; subst hb; intro hab; subst hab; exact hnd.1 ha⟩
    · rw [find_append_single]
      by_cases hd : e = d
      · subst hd
        rw [find_none_of hnd.1]
        simp [chunksFor]
      · have hd' : d ≠ e := fun h => hd h.symm
        simp only [hd', if_false, hd]
        by_cases hs : (q.find? (fun p => p.1 == d)).isSome
        · simp [hs, chunksFor, hd]
        · simp only [hs, Bool.false_eq_true, if_false]
          simp only [Bool.not_eq_true, Option.isSome_eq_false_iff, Option.isNone_iff_eq_none] at hs
          simp [chunksFor, hs, hd]

/-- **C10 (independence).** After exhausting the queue every dataset holds exactly what it would hold if its own iterator
had been drained alone (writing its chunks in order onto its previous content), whatever else is queued and in whatever
order; datasets not in the queue are untouched.  (Each dataset is queued once.) -/
theorem C10_independent (w : δ → χ → δ) (s : QState χ δ) (hnd : (s.queue.map Prod.fst).Nodup) (n : Nat)
    (hn : work s.queue ≤ n) (d : Nat) :
    (∀ cs, (d, cs) ∈ s.queue → (exhaust w n s).store d = cs.foldl w (s.store d)) ∧
    (d ∉ s.queue.map Prod.fst → (exhaust w n s).store d = s.store d) := by
  have key : (exhaust w n s).store d = (chunksFor d s.queue).foldl w (s.store d) := by
    induction n generalizing s with
    | zero =>
      have : work s.queue = 0 := by omega
      cases hq : s.queue with
      | nil => simp [exhaust, chunksFor]
      | cons p q => rw [hq] at this; simp [work] at this
    | succ n ih =>
      simp only [exhaust]
      cases h : qStep w s with
      | none =>
        unfold qStep at h
        split at h
        · rename_i hq; simp [chunksFor, hq]
        · simp at h
        · simp at h
      | some s' =>
        obtain ⟨h1, h2⟩ := qStep_inv w s s' h hnd
        show (exhaust w n s').store d = _
        rw [ih s' h1 (by have := qStep_work w s s' h; omega), h2]
  refine ⟨fun cs hmem => ?_, fun hd => ?_⟩
  · rw [key]
    have : chunksFor d s.queue = cs := by
      unfold chunksFor
      clear key hn
      generalize s.queue = q at hnd hmem
      induction q with
      | nil => simp at hmem
      | cons p q ih =>
        simp only [List.map_cons, List.nodup_cons] at hnd
        rcases List.mem_cons.1 hmem with rfl | hm
        · simp
        · have hpd : p.1 ≠ d := fun h => hnd.1 (List.mem_map.2 ⟨(d, cs), hm, h.symm⟩)
          rw [List.find?_cons_of_neg (by simpa using hpd)]
          exact ih hnd.2 hm
    rw [this]
  · rw [key]; simp [chunksFor, find_none_of hd]

example : (exhaust (fun (l : List Nat) c => l ++ [c]) 10 ⟨[(0, [1, 2, 3]), (1, []), (2, [7])], fun _ => []⟩).store 0
    = [1, 2, 3] := by decide

/-- **C10 (distinctness is needed).** If one dataset is queued twice, the content depends on the interleaving: it is not
that of either draining order. -/
theorem C10_same_dataset_fails :
    (exhaust (fun (l : List Nat) c => l ++ [c]) 10 ⟨[(0, [1, 2]), (0, [3, 4])], fun _ => []⟩).store 0 = [1, 3, 2, 4] := by
  decide

end Queue

/-! ### C66 -/

/-- **C66 (fits).** After the dataset has been extended to the chunk's minimum bounds, each axis is at least as long as
before and, for selections with explicit stops, long enough to hold everything the chunk selects: every integer in the
slice (and every integer index) is inside. -/
theorem C66_fits (dims : List Nat) (sel : List SelItem) (k : Nat) (item : SelItem) (d : Nat)
    (hk : sel[k]? = some item) (hd : dims[k]? = some d) :
    ∃ d', (extend dims (minBounds sel))[k]? = some d' ∧ d ≤ d' ∧
      (∀ start stop, item = .slice start (some stop) → stop ≤ d') ∧ (∀ start, item = .slice start none → d' = d) ∧
      (∀ i, item = .int i → i < d') := by
  induction sel generalizing dims k with
  | nil => simp at hk
  | cons x sel ih =>
    cases dims with
    | nil => simp at hd
    | cons d0 dims =>
      cases k with
      | zero =>
        simp at hk hd
        subst hk hd
        refine ⟨max d0 (minBound x), by simp [extend, minBounds], Nat.le_max_left _ _, ?_, ?_, ?_⟩ <;> intros <;> subst_vars <;> simp [minBound]
      | succ k =>
        obtain ⟨d', h1, h2⟩ := ih dims k (by simpa using hk) (by simpa using hd)
        exact ⟨d', by simpa [extend, minBounds] using h1, h2⟩

/-- **C66 (minimal).** The extent is the larger of the old extent and the least extent containing the selection: an axis
that was not already long enough ends exactly at the selection's end. -/
theorem C66_minimal (dims : List Nat) (sel : List SelItem) (hlen : sel.length = dims.length) :
    (extend dims (minBounds sel)).length = dims.length ∧
    ∀ (k d' d : Nat) (item : SelItem), sel[k]? = some item → dims[k]? = some d →
      (extend dims (minBounds sel))[k]? = some d' → d < d' →
      (∀ start stop, item = .slice start stop → stop = some d') ∧ (∀ i, item = .int i → i + 1 = d') := by
  induction sel generalizing dims with
  | nil => cases dims <;> simp at hlen; simp [extend]
  | cons x sel ih =>
    cases dims with
    | nil => simp at hlen
    | cons d0 dims =>
      obtain ⟨h1, h2⟩ := ih dims (by simpa using hlen)
      refine ⟨by simpa [extend, minBounds] using h1, ?_⟩
      intro k d' d item hk hd he hlt
      cases k with
      | zero =>
        simp [extend, minBounds] at hk hd he
        subst hk hd he
        have hb : max d0 (minBound x) = minBound x := by omega
        rw [hb] at hlt ⊢
        refine ⟨?_, ?_⟩
        · rintro start stop rfl
          cases stop <;> simp [minBound] at hlt ⊢
        · rintro i rfl; rfl
      | succ k => exact h2 k d' d item (by simpa using hk) (by simpa using hd) (by simpa [extend, minBounds] using he) hlt

example : extend [4, 7] (minBounds [.slice 2 (some 6), .slice 0 none]) = [6, 7] := by decide

end Verif.ChunkStream
