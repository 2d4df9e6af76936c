import Verif.Lemmas.RefData

/-!
# C185, C186, C187: datasets of references and queries
-/

namespace Verif.RefData
open Verif

/-! ## Examples -/

/-- objects 1, 2, 3 with builders 11, 12, 13 and containers 21, 22, 23; object 4 was written but not read -/
def exIO : IO where
  built := fun o => if 1 ≤ o ∧ o ≤ 3 then some (o + 10) else none
  cont := fun b => b + 10
  elems := fun o => if o = 3 then [5, 6, 7] else []
  file := fun p => if p = ["a"] then some 1 else if p = ["b"] then some 2 else if p = ["c"] then some 3 else
    if p = ["d"] then some 4 else none
  path := fun b => if b = 11 then ["a"] else if b = 12 then ["b"] else if b = 13 then ["c"] else if b = 14 then ["d"] else
    if b = 15 then ["a"] else ["e"]
  builder := fun c => if c = 30 then none else some (c - 10)

/-- three references -/
def exRefs : List Ref := [.obj 2, .obj 1, .obj 2]

/-! ## C185 -/

/-- The reference leads to an object with this builder. -/
def Leads (io : IO) (r : Ref) (b : Nat) : Prop :=
  ∃ o, (r = .obj o ∨ ∃ sel, r = .reg o sel) ∧ io.built o = some b

theorem getRef_leads {io : IO} {r : Ref} {b : Nat} (h : Leads io r b) :
    getRef io .builder r = .ok (.builder b) ∧ getRef io .container r = .ok (.cont (io.cont b)) := by
  obtain ⟨o, h | ⟨sel, h⟩, hb⟩ := h <;> subst h <;> simp [getRef, Ref.target, hb]

theorem getRef_not {io : IO} {k : Kind} {r : Ref} (h : ¬ ∃ b, Leads io r b) : getRef io k r = .error .valueError := by
  unfold getRef
  cases r with
  | null => rfl
  | obj o =>
    simp only [Ref.target]
    cases hb : io.built o with
    | none => rfl
    | some b => exact absurd ⟨b, o, .inl rfl, hb⟩ h
  | reg o sel =>
    simp only [Ref.target]
    cases hb : io.built o with
    | none => rfl
    | some b => exact absurd ⟨b, o, .inr ⟨sel, rfl⟩, hb⟩ h

/-- **C185** An index gives the builder, or the container, of the object to which the reference leads. -/
theorem C185_item {io : IO} {data : List Ref} {i : Nat} {r : Ref} (hr : data[i]? = some r) {b : Nat} (h : Leads io r b) :
    refItem io .builder data (.int i) = .ok (.one (.builder b)) ∧
      refItem io .container data (.int i) = .ok (.one (.cont (io.cont b))) :=
  ⟨refItem_int_ok (pyGet_of hr) (getRef_leads h).1, refItem_int_ok (pyGet_of hr) (getRef_leads h).2⟩

/-- **C185** A null reference, or one to an object that was not read, is a ValueError. -/
theorem C185_unread {io : IO} {k : Kind} {data : List Ref} {i : Nat} {r : Ref} (hr : data[i]? = some r)
    (h : ¬ ∃ b, Leads io r b) : refItem io k data (.int i) = .error .valueError := by
  rw [refItem_int (pyGet_of hr), getRef_not h]

/-- **C185** Negative indices count from the end. -/
theorem C185_negative {io : IO} {k : Kind} {data : List Ref} {i : Nat} (h : i < data.length) :
    refItem io k data (.int ((i : Int) - data.length)) = refItem io k data (.int i) := by
  have : pyPos data.length ((i : Int) - data.length) = pyPos data.length i := by
    unfold pyPos
    rw [if_neg (by omega), if_pos (by omega), if_pos (by omega), if_pos (by omega)]
    congr 1
    omega
  unfold refItem getitem
  simp only [evaluateKey, h5get, pyGet, this]

/-- **C185** A slice gives what its indices give, in order. -/
theorem C185_slice {io : IO} {k : Kind} {data : List Ref} {s : PySlice} {res : Sel Obj}
    (h : refItem io k data (.slice s) = .ok res) :
    ∃ is os, res = .many os ∧ s.range data.length = .ok is ∧
      List.Forall₂ (fun i o => refItem io k data (.int i) = .ok (.one o)) is os := by
  unfold refItem getitem at h
  simp only [evaluateKey, h5get] at h
  split at h
  · cases h
  · next hx =>
    split at hx
    · cases hx
    · split at hx
      · cases hx
      · split at hx <;> cases hx
  · next rs hx =>
    split at hx
    · cases hx
    · split at hx
      · cases hx
      · next is his =>
        split at hx
        · cases hx
        · next l hl =>
          cases hx
          split at h
          · cases h
          · next os hos =>
            cases h
            refine ⟨is, os, rfl, his, ?_⟩
            exact forall2_imp (forall2_get (mapE_ok_iff.1 hl) (mapE_ok_iff.1 hos)) fun i _ o ⟨r, h1, h2⟩ =>
              refItem_int_ok h1 h2

/-- **C185** All slices that go forward can be read if all references lead to objects that were read. -/
theorem C185_slice_total {io : IO} {k : Kind} {data : List Ref} (hd : ∀ r ∈ data, ∃ b, Leads io r b) {s : PySlice}
    (hs : 1 ≤ s.step.getD 1) : ∃ os, refItem io k data (.slice s) = .ok (.many os) := by
  have hr : ∃ is, s.range data.length = .ok is := by
    unfold PySlice.range PySlice.indices
    simp only
    rw [if_neg (by omega)]
    exact ⟨_, rfl⟩
  obtain ⟨is, his⟩ := hr
  obtain ⟨l, hl⟩ := mapE_total (f := pyGet data) (l := is) (by
    intro i hi
    obtain ⟨h1, h2⟩ := PySlice.mem_range his i hi
    refine ⟨data[i.toNat]'(by omega), ?_⟩
    have := pyGet_of (List.getElem?_eq_getElem (l := data) (i := i.toNat) (by omega))
    rwa [Int.toNat_of_nonneg h1] at this)
  obtain ⟨os, hos⟩ := mapE_total (f := getRef io k) (l := l) (by
    intro r hr
    have hrd : r ∈ data := by
      have h2 := mapE_ok_iff.1 hl
      obtain ⟨i, -, hi⟩ : ∃ i ∈ is, pyGet data i = .ok r := by
        clear his hl
        induction h2 with
        | nil => cases hr
        | cons h _ ih =>
          rcases List.mem_cons.1 hr with rfl | hr
          · exact ⟨_, List.mem_cons_self .., h⟩
          · obtain ⟨i, h1, h2⟩ := ih hr
            exact ⟨i, List.mem_cons_of_mem _ h1, h2⟩
      unfold pyGet at hi
      split at hi
      · cases hi
      · split at hi
        · next hx => cases hi; exact List.mem_of_getElem? hx
        · cases hi
    obtain ⟨b, hb⟩ := hd r hrd
    cases k
    · exact ⟨_, (getRef_leads hb).1⟩
    · exact ⟨_, (getRef_leads hb).2⟩)
  refine ⟨os, ?_⟩
  unfold refItem getitem
  simp only [evaluateKey, h5get]
  rw [if_neg (by omega)]
  simp only [his, hl, hos]

/-- **C185** A list of indices gives what they give, in order. -/
theorem C185_list {io : IO} {k : Kind} {data : List Ref} {is : List Int} {res : Sel Obj}
    (h : refItem io k data (.list is) = .ok res) :
    ∃ os, res = .many os ∧ List.Forall₂ (fun i o => refItem io k data (.int i) = .ok (.one o)) is os := by
  unfold refItem getitem at h
  simp only [evaluateKey, h5get] at h
  split at h
  · cases h
  · next hx =>
    split at hx
    · cases hx
    · split at hx <;> cases hx
  · next rs hx =>
    split at hx
    · cases hx
    · next ks hks =>
      split at hx
      · cases hx
        split at h
        · cases h
        · next os hos =>
          cases h
          exact ⟨os, rfl, forall2_imp (forall2_get (filterMap_get (mapE_ok_iff.1 hks)) (mapE_ok_iff.1 hos))
            fun i _ o ⟨r, h1, h2⟩ => refItem_int_ok h1 h2⟩
      · cases hx

/-- **C185** Iteration gives what the indices give, in order, and `d[()]` is a list of that. -/
theorem C185_iter {io : IO} {k : Kind} {data : List Ref} {os : List Obj} :
    (refIter io k data = .ok os ↔
      List.Forall₂ (fun (i : Nat) o => refItem io k data (.int i) = .ok (.one o)) (List.range data.length) os) ∧
    (refItem io k data (.tup []) = .ok (.many os) ↔ refIter io k data = .ok os) := by
  constructor
  · unfold refIter
    rw [mapE_ok_iff]
    constructor
    · intro h
      exact forall2_imp (forall2_get (range_get data) h) fun i _ o ⟨r, h1, h2⟩ => refItem_int_ok (pyGet_of h1) h2
    · intro h
      have h1 : List.Forall₂ (fun r (i : Nat) => data[i]? = some r) data (List.range data.length) :=
        (List.Forall₂.flip (range_get data))
      refine forall2_imp (forall2_get h1 h) fun r _ o ⟨i, h2, h3⟩ => ?_
      rw [refItem_int (pyGet_of h2)] at h3
      split at h3
      · cases h3
      · next hx => cases h3; exact hx
  · unfold refItem getitem refIter
    simp only [evaluateKey, h5get]
    cases mapE (getRef io k) data <;> simp

/-- the container that the manager constructs for a builder -/
def toCont (io : IO) : Obj → Obj
  | .builder b => .cont (io.cont b)
  | o => o

/-- **C185** The inverted dataset gives the containers of the builders, for every index. -/
theorem C185_inverse {io : IO} {data : List Ref} {key : Key} :
    (∀ b, refItem io .builder data key = .ok (.one (.builder b)) → refItem io .container data key = .ok (.one (.cont (io.cont b)))) ∧
    (∀ os, refItem io .builder data key = .ok (.many os) → refItem io .container data key = .ok (.many (os.map (toCont io)))) ∧
    ∀ e, refItem io .builder data key = .error e → refItem io .container data key = .error e := by
  have hg : ∀ r, getRef io .container r = (getRef io .builder r).map (toCont io) := by
    intro r
    unfold getRef
    cases r.target with
    | none => rfl
    | some o =>
      simp only
      cases io.built o <;> rfl
  unfold refItem
  cases getitem data key with
  | error e => simp
  | ok s =>
    cases s with
    | one r =>
      simp only [hg]
      cases hr : getRef io .builder r with
      | error e => simp [Except.map]
      | ok o =>
        refine ⟨?_, ?_, ?_⟩
        · intro b h
          cases h
          rfl
        · intro os h; cases h
        · intro e h; cases h
    | many rs =>
      simp only [mapE_comp hg]
      cases hr : mapE (getRef io .builder) rs with
      | error e => simp [Except.map]
      | ok o =>
        refine ⟨?_, ?_, ?_⟩
        · intro b h; cases h
        · intro os h
          cases h
          rfl
        · intro e h; cases h

example : refItem exIO .container exRefs (.int 1) = .ok (.one (.cont 21)) ∧ refItem exIO .builder exRefs (.int (-1)) = .ok (.one (.builder 12)) ∧
    refItem exIO .container exRefs (.slice ⟨some 1, none, none⟩) = .ok (.many [.cont 21, .cont 22]) ∧
    refItem exIO .container exRefs (.list [0, 2]) = .ok (.many [.cont 22, .cont 22]) ∧
    refIter exIO .container exRefs = .ok [.cont 22, .cont 21, .cont 22] ∧
    refItem exIO .container [.obj 4] (.int 0) = .error .valueError := by decide +kernel

example : ∀ r ∈ exRefs, ∃ b, Leads exIO r b := by
  intro r hr
  simp only [exRefs, List.mem_cons, List.not_mem_nil, or_false] at hr
  rcases hr with rfl | rfl | rfl
  · exact ⟨12, 2, .inl rfl, rfl⟩
  · exact ⟨11, 1, .inl rfl, rfl⟩
  · exact ⟨12, 2, .inl rfl, rfl⟩

/-- **C185** fails for datasets with two axes: `d[i, j]` is taken as `d[[i, j]]` and raises an error for all i and j. -/
theorem C185_two_indices_fails {io : IO} {k : Kind} {data : List (List Ref)} (i j : Int) :
    ∃ e, refItem2 io k data (.tup [i, j]) = .error e := by
  have hg : getitem data (.tup [i, j]) = h5get data (.list [i, j]) := rfl
  unfold refItem2
  rw [hg]
  cases hk : mapE (h5pos data.length) [i, j] with
  | error e =>
    simp only [h5get, hk]
    exact ⟨e, rfl⟩
  | ok ks =>
    have hf := filterMap_get (mapE_ok_iff.1 hk)
    simp only [h5get, hk]
    generalize ks.filterMap (data[·]?) = l at hf
    cases increasing ks with
    | false => exact ⟨.typeError, rfl⟩
    | true =>
      cases hf
      exact ⟨.typeError, rfl⟩

/-- **C185** and slices of several rows of such a dataset can not be read either: only what is empty is returned. -/
theorem C185_rows_fails {io : IO} {k : Kind} {data : List (List Ref)} {s : PySlice} {os : List Obj}
    (h : refItem2 io k data (.slice s) = .ok os) : os = [] := by
  unfold refItem2 at h
  split at h
  · cases h
  · next hx =>
    exfalso
    unfold getitem at hx
    simp only [evaluateKey, h5get] at hx
    split at hx
    · cases hx
    · split at hx
      · cases hx
      · split at hx <;> cases hx
  · cases h; rfl
  · cases h

/-- **C185** a single row of it can. -/
theorem C185_row_partial {io : IO} {k : Kind} {data : List (List Ref)} {i : Nat} {row : List Ref} (h : data[i]? = some row) :
    refItem2 io k data (.int i) = refIter io k row := by
  unfold refItem2 getitem
  simp only [evaluateKey, h5get, pyGet_of h]
  rfl

example : refItem2 exIO .container [[.obj 1, .obj 2], [.obj 2, .obj 3]] (.int 1) = .ok [.cont 22, .cont 23] ∧
    refItem2 exIO .container [[.obj 1, .obj 2], [.obj 2, .obj 3]] (.tup [1, 0]) = .error .typeError ∧
    refItem2 exIO .container [[.obj 1, .obj 2], [.obj 2, .obj 3]] (.slice ⟨none, none, none⟩) = .error .typeError := by
  decide +kernel

/-- **C185** A region reference gives the elements of the dataset that it selects, one at a time and for containers. -/
theorem C185_region_partial {io : IO} {data : List Ref} {i o b : Nat} {sel : List Nat} (h : data[i]? = some (.reg o sel))
    (hb : io.built o = some b) (hs : ∀ j ∈ sel, j < (io.elems o).length) :
    ∃ vs, regItem io .container data (.int i) = .ok vs ∧ List.Forall₂ (fun j v => (io.elems o)[j]? = some v) sel vs := by
  refine ⟨sel.filterMap ((io.elems o)[·]?), ?_, ?_⟩
  · unfold regItem
    rw [refItem_int_ok (pyGet_of h) (getRef_leads ⟨o, .inr ⟨sel, rfl⟩, hb⟩).2]
    simp only [h5get, pyGet_of h, readRegion]
  · clear h
    induction sel with
    | nil => exact .nil
    | cons j sel ih =>
      have hj : (io.elems o)[j]? = some ((io.elems o)[j]'(hs j (List.mem_cons_self ..))) := List.getElem?_eq_getElem _
      rw [List.filterMap_cons_some hj]
      exact .cons hj (ih fun j' hj' => hs j' (List.mem_cons_of_mem _ hj'))

/-- **C185** fails for regions of builders, for every index. -/
theorem C185_region_builder_fails {io : IO} {data : List Ref} (key : Key) : ∃ e, regItem io .builder data key = .error e := by
  unfold regItem
  cases h : refItem io .builder data key with
  | error e => exact ⟨e, rfl⟩
  | ok s =>
    simp only
    cases h5get data key with
    | error e => exact ⟨e, rfl⟩
    | ok r =>
      cases s with
      | many l => exact ⟨_, rfl⟩
      | one o =>
        cases r with
        | many l => exact ⟨_, rfl⟩
        | one r =>
          cases o with
          | builder b => exact ⟨_, rfl⟩
          | cont c =>
            exfalso
            unfold refItem at h
            split at h
            · cases h
            · next r' _ =>
              unfold getRef at h
              revert h
              cases r'.target with
              | none => simp
              | some o =>
                simp only
                cases io.built o <;> simp
            · split at h <;> cases h

/-- **C185** and for slices and lists of indices of regions. -/
theorem C185_region_slice_fails {io : IO} {k : Kind} {data : List Ref} :
    (∀ s, ∃ e, regItem io k data (.slice s) = .error e) ∧ ∀ is, ∃ e, regItem io k data (.list is) = .error e := by
  constructor
  · intro s
    unfold regItem
    cases h : refItem io k data (.slice s) with
    | error e => exact ⟨e, rfl⟩
    | ok r =>
      obtain ⟨is, os, rfl, -, -⟩ := C185_slice h
      simp only
      cases h5get data (.slice s) with
      | error e => exact ⟨e, rfl⟩
      | ok r => exact ⟨.typeError, rfl⟩
  · intro is
    unfold regItem
    cases h : refItem io k data (.list is) with
    | error e => exact ⟨e, rfl⟩
    | ok r =>
      obtain ⟨os, rfl, -⟩ := C185_list h
      simp only
      cases h5get data (.list is) with
      | error e => exact ⟨e, rfl⟩
      | ok r => exact ⟨.typeError, rfl⟩

/-- **C185** and iteration over regions gives whole containers. -/
theorem C185_region_iter_fails :
    regItem exIO .container [.reg 3 [1, 2]] (.int 0) = .ok [6, 7] ∧
      refIter exIO .container [.reg 3 [1, 2]] = .ok [.cont 23] := by decide +kernel

/-- **C185** fails: each call of `invert` makes a new object. -/
theorem C185_invert_fails {d : Dset} {n : Nat} (h : "__inverted" ∉ d.attrs.keys) :
    (invert d n).1 = n ∧ (invert (invert d n).2.1 (invert d n).2.2).1 = n + 1 := by
  have h1 : ∀ (d : Dset) n, "__inverted" ∉ d.attrs.keys →
      invert d n = (n, { d with attrs := d.attrs.set "_DatasetOfReferences__inverted" n }, n + 1) := by
    intro d n h
    have : ¬ d.attrs.has "__inverted" = true := fun hh => h (Dict.has_iff.1 hh)
    unfold invert
    simp only [if_neg this, Dict.get?_set_self, Option.getD_some]
  rw [h1 d n h]
  refine ⟨rfl, ?_⟩
  rw [h1]
  intro hm
  rcases Dict.mem_keys_set.1 hm with hm | hm
  · exact absurd hm (by decide)
  · exact h hm

example : (invert ⟨.builder, []⟩ 5).1 = 5 ∧ (invert (invert ⟨.builder, []⟩ 5).2.1 6).1 = 6 := by decide +kernel

/-! ### Tables -/

/-- the builder or its container -/
def asKind (io : IO) : Kind → Nat → Obj
  | .builder, b => .builder b
  | .container, b => .cont (io.cont b)

/-- what is returned for a field of a column with this type -/
def FieldOf (io : IO) (k : Kind) (t : Ty) (c : Cell) (o : Out) : Prop :=
  match t, c with
  | .ref, .ref r => ∃ b, Leads io r b ∧ o = .obj (asKind io k b)
  | .region, .ref (.reg d sel) => k = .container ∧ o = .vals (sel.filterMap ((io.elems d)[·]?))
  | .str, .bytes s => o = .str s
  | _, .num v => o = .num v
  | _, .str s => o = .str s
  | _, .bytes s => o = .bytes s
  | _, .ref r => o = .ref r

/-- no references in columns that are not for them, and nothing else in those that are -/
def Typed (t : Ty) (c : Cell) : Prop :=
  match t, c with
  | .ref, .ref _ => True
  | .region, .ref (.reg _ _) => True
  | .str, .bytes _ => True
  | .str, .str _ => True
  | .other, .num _ => True
  | .other, .bytes _ => True
  | _, _ => False

theorem getCell_spec {io : IO} {k : Kind} {t : Ty} {c : Cell} {o : Out} (ht : Typed t c) (h : getCell io k t c = .ok o) :
    FieldOf io k t c o := by
  have hg : ∀ {r o}, getRef io k r = .ok o →
      ∃ b, Leads io r b ∧ o = asKind io k b := by
    intro r o h
    by_cases hb : ∃ b, Leads io r b
    · obtain ⟨b, hb⟩ := hb
      refine ⟨b, hb, ?_⟩
      cases k
      · rw [(getRef_leads hb).1] at h
        cases h; rfl
      · rw [(getRef_leads hb).2] at h
        cases h; rfl
    · rw [getRef_not hb] at h
      cases h
  cases t with
  | region =>
    cases c with
    | ref r =>
      cases r with
      | reg d sel =>
        unfold getCell at h
        simp only at h
        split at h
        · cases h
        · next o' ho =>
          obtain ⟨b, -, rfl⟩ := hg ho
          split at h
          · cases h
          · next l hl =>
            cases h
            cases k with
            | builder => cases hl
            | container =>
              cases hl
              exact ⟨rfl, rfl⟩
      | null => cases ht
      | obj => cases ht
    | num => cases ht
    | bytes => cases ht
    | str => cases ht
  | ref =>
    cases c with
    | ref r =>
      unfold getCell at h
      simp only at h
      split at h
      · cases h
      · next o' ho =>
        cases h
        obtain ⟨b, hb, rfl⟩ := hg ho
        exact ⟨b, hb, rfl⟩
    | num => cases ht
    | bytes => cases ht
    | str => cases ht
  | str =>
    cases c with
    | ref r => cases ht
    | num => cases ht
    | bytes => cases h; rfl
    | str => cases h; rfl
  | other =>
    cases c with
    | ref r => cases ht
    | num => cases h; rfl
    | bytes => cases h; rfl
    | str => cases ht

/-- **C185** Every field of a row of a table is the object for a reference, the elements for a region, a string for encoded
bytes, and otherwise the value. -/
theorem C185_table_partial {io : IO} {k : Kind} {tys : List Ty} {data : List (List Cell)} {i : Nat} {row : List Cell}
    (hr : data[i]? = some row) (ht : List.Forall₂ Typed tys row) {out : List Out}
    (h : tblRow io k tys data i = .ok out) :
    out.length = row.length ∧ ∀ (j : Nat) t c o, tys[j]? = some t → row[j]? = some c → out[j]? = some o → FieldOf io k t c o := by
  have hs : swapRefs io k tys row = .ok out := by
    unfold tblRow tblItem getitem at h
    simp only [evaluateKey, h5get, pyGet_of hr] at h
    cases hx : swapRefs io k tys row with
    | error e => rw [hx] at h; cases h
    | ok r => rw [hx] at h; cases h; rfl
  clear h hr
  induction ht generalizing out with
  | nil =>
    cases hs
    simp
  | cons ht _ ih =>
    unfold swapRefs at hs
    split at hs
    · cases hs
    · next o ho =>
      split at hs
      · cases hs
      · next os hos =>
        cases hs
        obtain ⟨h1, h2⟩ := ih hos
        refine ⟨by simp [h1], ?_⟩
        intro j t c o' hj1 hj2 hj3
        cases j with
        | zero =>
          cases hj1; cases hj2; cases hj3
          exact getCell_spec ht ho
        | succ j => exact h2 j t c o' (by simpa using hj1) (by simpa using hj2) (by simpa using hj3)

/-- **C185** Slices of a table give the rows that the indices give, and `resolve` and iteration give all rows. -/
theorem C185_table_rows {io : IO} {k : Kind} {tys : List Ty} {data : List (List Cell)} {rows : List (List Out)} :
    (tblIter io k tys data = .ok rows ↔ tblResolve io k tys data = .ok (.many rows)) ∧
      ∀ s, tblItem io k tys data (.slice s) = .ok (.many rows) →
        ∃ is, s.range data.length = .ok is ∧
          List.Forall₂ (fun i r => tblItem io k tys data (.int i) = .ok (.one r)) is rows := by
  have hint : ∀ i row, pyGet data i = .ok row → tblItem io k tys data (.int i) = match swapRefs io k tys row with
      | .error e => .error e
      | .ok r => .ok (.one r) := by
    intro i row h
    unfold tblItem getitem
    simp only [evaluateKey, h5get, h]
    all_goals (cases swapRefs io k tys row <;> rfl)
  constructor
  · have h1 : tblIter io k tys data = mapE (swapRefs io k tys) data := by
      unfold tblIter
      have : ∀ (l : List Nat) (m : List (List Cell)), List.Forall₂ (fun i a => data[i]? = some a) l m →
          mapE (tblRow io k tys data) l = mapE (swapRefs io k tys) m := by
        intro l m h
        induction h with
        | nil => rfl
        | @cons i a l m h _ ih =>
          unfold mapE
          have : tblRow io k tys data i = swapRefs io k tys a := by
            unfold tblRow
            rw [hint i a (pyGet_of h)]
            cases swapRefs io k tys a <;> rfl
          rw [this, ih]
      exact this _ _ (range_get data)
    have h2 : tblResolve io k tys data = match mapE (swapRefs io k tys) data with
        | .error e => .error e
        | .ok rs => .ok (.many rs) := by
      have e : PySlice.range ⟨some (0 : Int), some (data.length : Int), none⟩ data.length = .ok (rangeUp 0 (data.length : Int) 1) := by
        unfold PySlice.range PySlice.indices
        simp only [Option.getD_none]
        rw [if_neg (by decide)]
        simp only [show ¬ (data.length : Int) < 0 by omega, if_false, gt_iff_lt, Int.zero_lt_one, if_true, Int.lt_irrefl]
        rw [min_eq_left (by omega), min_self]
      have e2 : mapE (pyGet data) (rangeUp 0 (data.length : Int) 1) = .ok data := by
        have := rangeUp_one (lo := 0) (hi := data.length)
        rw [Int.natCast_zero] at this
        rw [this, mapE_range' 0 data.length (Nat.le_refl _)]
        simp
      unfold tblResolve tblItem getitem
      simp only [evaluateKey, h5get, e, e2, Option.getD_none, Int.lt_irrefl, if_false]
      all_goals (cases mapE (swapRefs io k tys) data <;> rfl)
    rw [h1, h2]
    cases mapE (swapRefs io k tys) data <;> simp
  · intro s h
    unfold tblItem getitem at h
    simp only [evaluateKey, h5get] at h
    by_cases hstep : s.step.getD 1 < 1
    · simp only [if_pos hstep] at h
      cases h
    · simp only [if_neg hstep] at h
      cases his : s.range data.length with
      | error e => simp only [his] at h; cases h
      | ok is =>
        simp only [his] at h
        refine ⟨is, rfl, ?_⟩
        cases hl : mapE (pyGet data) is with
        | error e => simp only [hl] at h; cases h
        | ok l =>
          simp only [hl] at h
          cases hr : mapE (swapRefs io k tys) l with
          | error e => simp only [hr] at h; cases h
          | ok rs =>
            simp only [hr] at h
            cases h
            refine forall2_imp (forall2_get (mapE_ok_iff.1 hl) (mapE_ok_iff.1 hr)) fun i _ r ⟨row, h1, h2⟩ => ?_
            rw [hint i row h1, h2]

example : tblRow exIO .container [.ref, .str, .other, .region] [[.ref (.obj 2), .bytes "a", .num 5, .ref (.reg 3 [0, 2])]] 0 =
    .ok [.obj (.cont 22), .str "a", .num 5, .vals [5, 7]] := by decide +kernel

example : List.Forall₂ Typed [.ref, .str, .other, .region] [.ref (.obj 2), .bytes "a", .num 5, .ref (.reg 3 [0, 2])] :=
  .cons trivial (.cons trivial (.cons trivial (.cons trivial .nil)))

/-! ## C186 -/

/-- **C186** A container that was read from the file can be appended: the last item is then this container, the others are what
they were. -/
theorem C186_append_partial {io : IO} {data : List Ref} {c b o : Nat} (hc : io.builder c = some b)
    (ho : io.file (io.path b) = some o) (hb : io.built o = some b) (hcb : io.cont b = c) :
    ∃ data', append io true data c = .ok data' ∧ data'.length = data.length + 1 ∧
      refItem io .container data' (.int (-1)) = .ok (.one (.cont c)) ∧
      ∀ i : Nat, i < data.length → ∀ k, refItem io k data' (.int i) = refItem io k data (.int i) := by
  refine ⟨data ++ [.obj o], ?_, by simp, ?_, ?_⟩
  · unfold append
    simp only [hc, ho, if_true]
  · have hl : (data ++ [Ref.obj o])[data.length]? = some (.obj o) := by simp
    have := C185_negative (io := io) (k := .container) (data := data ++ [.obj o]) (i := data.length) (by simp)
    rw [show ((data.length : Int) - ((data ++ [Ref.obj o]).length : Nat)) = -1 by simp] at this
    rw [this, (C185_item hl ⟨o, .inl rfl, hb⟩).2, hcb]
  · intro i hi k
    have h1 := List.getElem?_eq_getElem hi
    rw [refItem_int (pyGet_of h1), refItem_int (pyGet_of (by rw [List.getElem?_append_left hi]; exact h1))]

/-- **C186** What was not built, is not in the file, or a dataset with a fixed size raises an error. -/
theorem C186_refused {io : IO} {data : List Ref} {c : Nat} {rs : Bool}
    (h : io.builder c = none ∨ (∃ b, io.builder c = some b ∧ io.file (io.path b) = none) ∨ rs = false) :
    ∃ e, append io rs data c = .error e := by
  unfold append
  cases hc : io.builder c with
  | none => exact ⟨_, rfl⟩
  | some b =>
    simp only
    cases hf : io.file (io.path b) with
    | none => exact ⟨_, rfl⟩
    | some o =>
      rcases h with h | ⟨b', h1, h2⟩ | h
      · rw [hc] at h; cases h
      · rw [hc] at h1; cases h1; rw [hf] at h2; cases h2
      · subst h; exact ⟨_, rfl⟩

example : append exIO true exRefs 23 = .ok [.obj 2, .obj 1, .obj 2, .obj 3] ∧ append exIO true exRefs 30 = .error .valueError ∧
    append exIO true exRefs 26 = .error .keyError ∧ append exIO false exRefs 23 = .error .typeError := by decide +kernel

/-- **C186** fails for a container written with this object: it is appended, but the item can not be read. -/
theorem C186_written_fails : append exIO true [] 24 = .ok [.obj 4] ∧
    refItem exIO .container [.obj 4] (.int (-1)) = .error .valueError := by decide +kernel

/-- **C186** fails for a container of another file: a reference to what has the same path in this one is appended. -/
theorem C186_other_file_fails : append exIO true [] 25 = .ok [.obj 1] ∧
    refItem exIO .container [.obj 1] (.int (-1)) = .ok (.one (.cont 21)) := by decide +kernel

/-! ## C187 -/

section
variable {α : Type} [LinearOrder α]

/-- **C187** `ds[ds < v]` and `ds[ds >= v]` are the elements less than `v` and the others. -/
theorem C187_order (data : List α) (hs : data.Pairwise (· ≤ ·)) (v : α) :
    queried data .lt v = .ok (.many (data.filter (· < v))) ∧ queried data .ge v = .ok (.many (data.filter (v ≤ ·))) := by
  obtain ⟨f, h1, h2, h3⟩ := Arrays.find_spec data hs v
  constructor
  · unfold queried
    simp only [evalQuery, Arrays.lt, h1, Except.map, arrItem]
    have := slc_elems (data := data) (lo := 0) (hi := f) (Nat.zero_le _) h2
    rw [Int.natCast_zero] at this
    rw [this, drop_take_eq (P := (· < v)) (Nat.zero_le _) h2 (by
      intro k x hk
      rw [decide_eq_true_iff, h3 k x hk]
      omega)]
  · unfold queried
    simp only [evalQuery, Arrays.ge, h1, Except.map, arrItem]
    have := slc_elems (data := data) (lo := f) (hi := data.length) h2 (Nat.le_refl _)
    have hl : (Arrays.sortedArray data).len = data.length := rfl
    rw [hl, this, drop_take_eq (P := (v ≤ ·)) h2 (Nat.le_refl _) (by
      intro k x hk
      have := (List.getElem?_eq_some_iff.1 hk).1
      rw [decide_eq_true_iff, ← not_lt, h3 k x hk]
      omega)]

/-- **C187** If some element is greater than `v`, `ds[ds <= v]` and `ds[ds > v]` are those elements. -/
theorem C187_upper_partial (data : List α) (hs : data.Pairwise (· ≤ ·)) (v : α) (hv : ∃ x ∈ data, v < x) :
    queried data .le v = .ok (.many (data.filter (· ≤ v))) ∧ queried data .gt v = .ok (.many (data.filter (v < ·))) := by
  obtain ⟨f, u, h1, h2, h3, h4, h5, h6⟩ := (Arrays.upper_spec data hs v).1 hv
  constructor
  · unfold queried
    simp only [evalQuery, Arrays.le, h2, Except.map, arrItem]
    have := slc_elems (data := data) (lo := 0) (hi := u) (Nat.zero_le _) h4
    rw [Int.natCast_zero] at this
    rw [this, drop_take_eq (P := (· ≤ v)) (Nat.zero_le _) h4 (by
      intro k x hk
      rw [decide_eq_true_iff, h6 k x hk]
      omega)]
  · unfold queried
    simp only [evalQuery, Arrays.gt, h2, Except.map, arrItem]
    have := slc_elems (data := data) (lo := u) (hi := data.length) h4 (Nat.le_refl _)
    have hl : (Arrays.sortedArray data).len = data.length := rfl
    rw [hl, this, drop_take_eq (P := (v < ·)) h4 (Nat.le_refl _) (by
      intro k x hk
      have := (List.getElem?_eq_some_iff.1 hk).1
      rw [decide_eq_true_iff, ← not_le, h6 k x hk]
      omega)]

/-- **C187** If some element is greater than `v` and some are equal to it, `ds[ds == v]` is `v` for one, and otherwise the
elements equal to `v`. -/
theorem C187_eq_partial (data : List α) (hs : data.Pairwise (· ≤ ·)) (v : α) (hv : ∃ x ∈ data, v < x) (hm : v ∈ data) :
    (data.count v = 1 ∧ queried data .eq v = .ok (.one v)) ∨
      (2 ≤ data.count v ∧ queried data .eq v = .ok (.many (List.replicate (data.count v) v))) := by
  obtain ⟨f, u, h1, h2, h3, h4, h5, h6⟩ := (Arrays.upper_spec data hs v).1 hv
  have hd : (data.take u).drop f = data.filter (v == ·) := drop_take_eq h3 h4 (by
    intro k x hk
    rw [beq_iff_eq]
    have h5 := h5 k x hk
    have h6 := h6 k x hk
    constructor
    · rintro rfl
      have h6 := h6.1 (le_refl _)
      have h5 := mt h5.2 (lt_irrefl _)
      omega
    · intro ⟨ha, hb⟩
      have h6 := h6.2 hb
      have h5 := mt h5.1 (by omega)
      exact le_antisymm (not_lt.1 h5) h6)
  have hc : data.count v = u - f := by
    have : ((data.take u).drop f).length = data.count v := by
      rw [hd, List.count, List.countP_eq_length_filter]
      congr 1
      apply List.filter_congr
      intro x _
      exact BEq.comm
    rw [← this]
    simp
    omega
  have hpos : 0 < data.count v := List.count_pos_iff.2 hm
  have hrep : data.filter (v == ·) = List.replicate (data.count v) v := by
    rw [List.eq_replicate_iff]
    constructor
    · rw [← hd, hc]; simp; omega
    · intro x hx
      have := (List.mem_filter.1 hx).2
      exact (beq_iff_eq.1 this).symm
  unfold queried
  simp only [evalQuery, Arrays.eq, h2, Except.map, h1]
  by_cases h : (u : Int) - f = 1
  · left
    refine ⟨by omega, ?_⟩
    rw [if_pos h]
    simp only [arrItem]
    have hfl : f < data.length := by omega
    have hx := List.getElem?_eq_getElem hfl
    rw [pyGet_of hx]
    have h5 := h5 f _ hx
    have h6 := h6 f _ hx
    have : data[f] = v := le_antisymm (h6.2 (by omega)) (not_lt.1 (mt h5.1 (by omega)))
    rw [this]
  · right
    refine ⟨by omega, ?_⟩
    rw [if_neg h, if_neg (by omega)]
    simp only [arrItem]
    rw [slc_elems (by omega) h4, hd, hrep]

/-- **C187** If some element is greater than `v` and one is equal to it, `ds[ds != v]` are the other elements. -/
theorem C187_ne_partial (data : List α) (hs : data.Pairwise (· ≤ ·)) (v : α) (hv : ∃ x ∈ data, v < x) (hm : data.count v = 1) :
    queried data .ne v = .ok (.many (data.filter (· ≠ v))) := by
  have hmem : v ∈ data := List.count_pos_iff.1 (by omega)
  obtain ⟨f, u, h1, h2, h3, h4, h5, h6⟩ := (Arrays.upper_spec data hs v).1 hv
  have huf : (u : Int) - f = 1 := by
    rcases C187_eq_partial data hs v hv hmem with ⟨_, he⟩ | ⟨hc, _⟩
    · by_contra hne
      unfold queried at he
      simp only [evalQuery, Arrays.eq, h2, Except.map, h1] at he
      rw [if_neg hne] at he
      split at he
      · simp [arrItem] at he
      · simp only [arrItem] at he
        split at he <;> cases he
    · omega
  have hfl : f < data.length := by omega
  have hat : data[f] = v := by
    have hx := List.getElem?_eq_getElem hfl
    exact le_antisymm ((h6 f _ hx).2 (by omega)) (not_lt.1 (mt (h5 f _ hx).1 (by omega)))
  unfold queried
  simp only [evalQuery, Arrays.ne, Arrays.eq, h2, Except.map, h1]
  rw [if_pos huf]
  simp only [arrItem, Arrays.positionsAll, List.flatMap_cons, List.flatMap_nil, List.append_nil]
  have e1 := slc_elems (data := data) (lo := 0) (hi := f) (Nat.zero_le _) (by omega)
  have e2 := slc_elems (data := data) (lo := f + 1) (hi := data.length) (by omega) (Nat.le_refl _)
  rw [Int.natCast_zero] at e1
  rw [Int.natCast_succ] at e2
  have hl : (Arrays.sortedArray data).len = data.length := rfl
  rw [hl, mapE_append e1 e2]
  simp only [List.drop_zero, List.take_length]
  congr 2
  conv_rhs => rw [← List.take_append_drop f data, List.drop_eq_getElem_cons hfl, List.filter_append, hat]
  rw [List.filter_cons_of_neg (by simp)]
  congr 1
  · symm
    rw [List.filter_eq_self]
    intro x hx
    obtain ⟨k, hk⟩ := List.getElem?_of_mem hx
    rw [List.getElem?_take] at hk
    split at hk
    · have := (h5 k x hk).2 (by omega)
      simpa using ne_of_lt this
    · cases hk
  · symm
    rw [List.filter_eq_self]
    intro x hx
    obtain ⟨k, hk⟩ := List.getElem?_of_mem hx
    rw [List.getElem?_drop] at hk
    have := mt (h6 _ x hk).1 (by omega)
    simpa using ne_of_gt (not_le.1 this)

example : ∃ x ∈ [1, 3, 5], (3 : Int) < x ∧ [1, 3, 5].count (3 : Int) = 1 := ⟨5, by decide⟩

end

/-- **C187** fails at and above the greatest element, where an error is raised. -/
theorem C187_max_fails : queried [1, 3, 5] .le (5 : Int) = .error .indexError ∧ queried [1, 3, 5] .gt (7 : Int) = .error .indexError ∧
    queried [1, 3, 5] .eq (5 : Int) = .error .indexError := by decide +kernel

/-- **C187** fails for a value that is not there: `ds[ds == v]` gives all elements, `ds[ds != v]` an error. -/
theorem C187_absent_fails : queried [1, 3, 5] .eq (2 : Int) = .ok (.many [1, 3, 5]) ∧
    queried [1, 3, 5] .ne (2 : Int) = .error .typeError := by decide +kernel

example : queried [1, 3, 3, 5] .lt (3 : Int) = .ok (.many [1]) ∧ queried [1, 3, 3, 5] .eq (3 : Int) = .ok (.many [3, 3]) ∧
    queried [1, 3, 5] .ne (3 : Int) = .ok (.many [1, 5]) := by decide +kernel

/-- **C187** fails if the elements change: a query gives what it found first. -/
theorem C187_stale_fails {α : Type} [LT α] [DecidableLT α] [DecidableEq α] {data data' : List α} {op : Op} {v : α} {c c' : Cache}
    {f : Found} {x : Bool} (h : evaluate data op v c x = .ok (f, c')) : evaluate data' op v c' x = .ok (f, c') := by
  unfold evaluate at h ⊢
  cases x with
  | true =>
    simp only [if_true] at h ⊢
    cases he : c.expanded with
    | some g =>
      rw [he] at h
      cases h
      rw [he]
    | none =>
      rw [he] at h
      simp only at h
      split at h
      · cases h
      · cases h
        rfl
  | false =>
    simp only [Bool.false_eq_true, if_false] at h ⊢
    cases he : c.collapsed with
    | some g =>
      rw [he] at h
      cases h
      rw [he]
    | none =>
      rw [he] at h
      simp only at h
      split at h
      · cases h
      · cases h
        rfl

example : (evaluate [1, 3] .lt (3 : Int) {} true).map (·.1) = .ok (.res (.slc 0 1)) := by decide +kernel

end Verif.RefData
