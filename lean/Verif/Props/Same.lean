import Verif.Lemmas.Same

/-! # Properties of the assertions about containers and of the round trip tests -/

namespace Verif.Same
open Verif List

/-! ## C200: what a pass of `assertContainerEqual` says -/

/-- If `assertContainerEqual` passes for two containers (not `Data` objects) whose fields hold values of the kinds of their
class, then they are of the same class, have the same name (or it is ignored), source and object id (or these are ignored)
and number of children, and each field of the first holds what that of the second does: equal numbers (floats and arrays up
to the tolerance), equal text, equally long sequences, containers and data, at every depth.  Missing for the full claim:
`Data` objects compared directly, and values of different kinds (`C200_data_fails`, `C200_kinds_fails`). -/
theorem C200_pass_partial (S : Sch) (n : Nat) (ign : Bool) (o : Opts) (a b : V) (ha : Conf S .obj a) (hb : Conf S .obj b)
    (hc : isContainer a = true) (h : assertContainerEqual n ign o a b = .pass) :
    ∃ c n1 n2 s1 s2 i1 i2 k fs gs, a = .obj none c n1 s1 i1 k fs ∧ b = .obj none c n2 s2 i2 k gs ∧
      (ign = true ∨ n1 = n2) ∧ (o.ignoreAttrs = true ∨ s1 = s2 ∧ i1 = i2) ∧
      ∀ f v, (f, v) ∈ fs → ∃ w, (f, w) ∈ gs ∧ Near o v w := by
  obtain ⟨d1, d2, c, n1, n2, s1, s2, i1, i2, k1, k2, fs, gs, rfl, rfl, hd, hn, hi, hk, hf⟩ :=
    cmp_near n (.container ign) o a b h ha hb
  cases d1 with
  | some _ => cases hc
  | none => cases d2 with
    | some _ => cases hd
    | none =>
      simp only [Option.isSome_none, Bool.false_eq_true, false_or] at hk
      subst hk
      refine ⟨c, n1, n2, s1, s2, i1, i2, k1, fs, gs, rfl, rfl, hn, hi, fun f v hv => ?_⟩
      obtain ⟨w, hw, h⟩ := hf f v hv
      exact ⟨w, getField_mem hw, h⟩

/-- Where no floats and no arrays occur and nothing is ignored, the containers are equal in every part and at every depth. -/
theorem C200_equal_partial (S : Sch) (hS : S.floats = false) (n : Nat) (a b : V) (ha : Conf S .obj a) (hb : Conf S .obj b)
    (hc : isContainer a = true) (h : assertContainerEqual n false {} a b = .pass) : a = b :=
  near_eq hS ((cmp_near n (.container false) {} a b h ha hb).cont hc) .obj ha hb

/-- classes of the examples: 0 has the fields `x` (a number) and `d` (a `Data` object), 1 is the class of the `Data` -/
def exS : Sch where
  names c := if c = 0 then ["x", "d"] else if c = 1 then ["description"] else []
  field _ f := if f = "d" then .obj else .scalar
  data _ := .list .scalar
  floats := true
  strict := true

/-- the same without floats and arrays -/
def exS0 : Sch where
  names := exS.names
  field := exS.field
  data := exS.data
  floats := false
  strict := true

/-- a `Data` object with a description -/
def exD (xs : List V) : V := .obj (some (.seq xs)) 1 "d" none 7 0 [("description", .str "volts".toList)]

/-- a container with a number and a `Data` object -/
def exC (x : V) (xs : List V) : V := .obj none 0 "c" (some "f.h5") 8 1 [("x", x), ("d", exD xs)]

theorem exC_conf (S : Sch) (hn : S.names = exS.names) (hf : S.field = exS.field) (hd : S.data = exS.data) {x : V} {xs : List V}
    (hx : Conf S .scalar x) (h : ∀ v ∈ xs, Conf S .scalar v) : Conf S .obj (exC x xs) := by
  refine .cont (by rw [hn]; rfl) (by rw [hn]; decide) fun p hp => ?_
  simp only [mem_cons, not_mem_nil, or_false] at hp
  rcases hp with rfl | rfl
  · rw [hf]; exact hx
  · rw [hf]
    refine Conf.data (by rw [hd]; exact .seq h) (fun _ => rfl) (by rw [hn]; rfl) (by rw [hn]; decide) fun p hp => ?_
    simp only [mem_cons, not_mem_nil, or_false] at hp
    subst hp
    rw [hf]; exact .str

example : assertContainerEqual 9 false {} (exC (.flt 1000000000) [.int 1, .int 2]) (exC (.flt 1000000001) [.int 1, .int 2]) = .pass ∧
    assertContainerEqual 9 false {} (exC (.flt 1000000000) [.int 1, .int 2]) (exC (.flt 1000000000) [.int 1, .int 3]) = .fail ∧
    Conf exS .obj (exC (.flt 1000000000) [.int 1, .int 2]) :=
  ⟨by rfl, by rfl, exC_conf exS rfl rfl rfl (.flt rfl) fun v hv => by
    simp only [mem_cons, not_mem_nil, or_false] at hv; rcases hv with rfl | rfl <;> exact .int⟩

example : assertContainerEqual 9 false {} (exC (.int 1) [.int 1, .none]) (exC (.int 1) [.int 1, .none]) = .pass ∧
    Conf exS0 .obj (exC (.int 1) [.int 1, .none]) :=
  ⟨by rfl, exC_conf exS0 rfl rfl rfl .int fun v hv => by
    simp only [mem_cons, not_mem_nil, or_false] at hv
    rcases hv with rfl | rfl
    · exact .int
    · exact .none⟩

/-- Two `Data` objects given to `assertContainerEqual` are found equal whatever data they hold. -/
theorem C200_data_fails : ∃ a b : V, Conf exS .obj a ∧ Conf exS .obj b ∧
    (∀ n, 3 ≤ n → assertContainerEqual n false {} a b = .pass) ∧ ¬ ∃ o, Near o a b := by
  refine ⟨exD [.int 1], exD [], ?_, ?_, fun n hn => ?_, ?_⟩
  · refine .data (.seq fun v hv => ?_) (fun _ => rfl) rfl (by decide) fun p hp => ?_
    · simp only [mem_cons, not_mem_nil, or_false] at hv; subst hv; exact .int
    · simp only [mem_cons, not_mem_nil, or_false] at hp; subst hp; exact .str
  · refine .data (.seq fun v hv => by simp at hv) (fun _ => rfl) rfl (by decide) fun p hp => ?_
    simp only [mem_cons, not_mem_nil, or_false] at hp; subst hp; exact .str
  · obtain ⟨m, rfl⟩ : ∃ m, n = m + 3 := ⟨n - 3, by omega⟩
    rfl
  · rintro ⟨o, h⟩
    cases h with
    | num h => cases h
    | seq h => cases h
    | data _ h =>
      cases h with
      | num h => cases h
      | seq _ _ h3 h4 h5 => cases h3; cases h4; cases h5

/-- A string passes for the list of its characters, a list for the `Data` object that holds the same, and whole numbers in
arrays pass for others that are near. -/
theorem C200_kinds_fails : ∃ a b c d e f : V,
    (∀ n, 6 ≤ n → assertContainerEqual n false {} a b = .pass ∧ assertContainerEqual n false {} c d = .pass ∧
      assertContainerEqual n false {} e f = .pass) ∧ a ≠ b ∧ c ≠ d ∧ e ≠ f ∧
    a = .obj none 0 "c" none 1 0 [("x", .str ['a', 'b'])] ∧
    b = .obj none 0 "c" none 1 0 [("x", .seq [.str ['a'], .str ['b']])] ∧
    c = .obj none 0 "c" none 1 0 [("x", .seq [.int 5])] ∧
    d = .obj none 0 "c" none 1 0 [("x", .obj (some (.seq [.int 5])) 1 "d" none 2 0 [])] ∧
    e = .obj none 0 "c" none 1 0 [("x", .arr false [20000000])] ∧
    f = .obj none 0 "c" none 1 0 [("x", .arr false [20000001])] := by
  refine ⟨_, _, _, _, _, _, fun n hn => ?_, ?_, ?_, ?_, rfl, rfl, rfl, rfl, rfl, rfl⟩
  · obtain ⟨m, rfl⟩ : ∃ m, n = m + 6 := ⟨n - 6, by omega⟩
    exact ⟨rfl, rfl, rfl⟩
  · intro h; simp at h
  · intro h; simp at h
  · intro h; simp at h

/-! ## C201: a container equals itself -/

/-- A container or `Data` object compared with itself passes, whatever is ignored, if its dictionaries are empty and the
`Data` objects in it hold sequences.  Missing: other dictionaries, and `Data` objects with a single value
(`C201_dict_fails`, `C201_scalar_data_fails`). -/
theorem C201_refl_partial (S : Sch) (hS : S.strict = true) (a : V) (h : Conf S .obj a) (ha : isContainer a = true ∨ isData a = true) :
    ∃ N, ∀ n, N ≤ n → ∀ ign o, assertContainerEqual n ign o a a = .pass := by
  obtain ⟨N, hN⟩ := conf_refl hS h
  exact ⟨N, fun n hn ign o => (hN n hn).2.2.2 ha o ign⟩

example : Conf exS .obj (exC (.flt 3) [.int 1, .flt 2]) ∧ exS.strict = true ∧ isContainer (exC (.flt 3) [.int 1, .flt 2]) = true :=
  ⟨exC_conf exS rfl rfl rfl (.flt rfl) fun v hv => by
    simp only [mem_cons, not_mem_nil, or_false] at hv
    rcases hv with rfl | rfl
    · exact .int
    · exact .flt rfl, rfl, rfl⟩

/-- A container with a dictionary of containers is an error to compare, even with itself: `f1.values()[0]`. -/
theorem C201_dict_fails : ∀ n, 2 ≤ n → ∀ (ign : Bool) (o : Opts) (c : Nat) (nm : String) (src : Option String) (i k : Nat) (f key : String)
    (v : V), assertContainerEqual n ign o (.obj none c nm src i k [(f, .dict [(key, v)])])
      (.obj none c nm src i k [(f, .dict [(key, v)])]) = .err .typeError := by
  intro n hn ign o c nm src i k f key v
  obtain ⟨m, rfl⟩ : ∃ m, n = m + 2 := ⟨n - 2, by omega⟩
  simp [assertContainerEqual, cmp, containers, check, Out.andThen, getField, isSeq, Out.all]

/-- A container with a `Data` object that holds a single number is an error to compare, even with itself: `len(data1)`. -/
theorem C201_scalar_data_fails : ∀ n, 3 ≤ n → ∀ (ign : Bool) (o : Opts) (i : Int),
    assertContainerEqual n ign o (.obj none 0 "c" none 1 1 [("x", .obj (some (.int i)) 1 "d" none 2 0 [])])
      (.obj none 0 "c" none 1 1 [("x", .obj (some (.int i)) 1 "d" none 2 0 [])]) = .err .typeError := by
  intro n hn ign o i
  obtain ⟨m, rfl⟩ : ∃ m, n = m + 3 := ⟨n - 3, by omega⟩
  simp [assertContainerEqual, cmp, containers, check, Out.andThen, getField, isSeq, Out.all, lenOf]

/-- With `ignore_string_to_byte`, bytes pass for the string in the elements of lists, but not in fields, and not below a
`Data` object. -/
theorem C201_bytes_fails : ∀ n, 9 ≤ n →
    assertContainerEqual n false ⟨false, true⟩ (.obj none 0 "c" none 1 0 [("x", .seq [.str ['a']])])
      (.obj none 0 "c" none 1 0 [("x", .seq [.bytes ['a']])]) = .pass ∧
    assertContainerEqual n false ⟨false, true⟩ (.obj none 0 "c" none 1 0 [("x", .str ['a'])])
      (.obj none 0 "c" none 1 0 [("x", .bytes ['a'])]) = .fail ∧
    assertContainerEqual n false ⟨false, true⟩
      (.obj none 0 "c" none 1 1 [("d", .obj (some (.seq [])) 1 "d" none 2 0 [("x", .seq [.str ['a']])])])
      (.obj none 0 "c" none 1 1 [("d", .obj (some (.seq [])) 1 "d" none 2 0 [("x", .seq [.bytes ['a']])])]) = .fail := by
  intro n hn
  obtain ⟨m, rfl⟩ : ∃ m, n = m + 9 := ⟨n - 9, by omega⟩
  exact ⟨rfl, rfl, rfl⟩

/-! ## C202: the order of the two containers -/

/-- Where no floats and no arrays occur and nothing is ignored, if `a` passes against `b` then `b` passes against `a`.
Missing: floats (`C202_fails`). -/
theorem C202_symm_partial (S : Sch) (hf : S.floats = false) (hS : S.strict = true) (n : Nat) (a b : V) (ha : Conf S .obj a)
    (hb : Conf S .obj b) (hc : isContainer a = true) (h : assertContainerEqual n false {} a b = .pass) :
    ∃ N, ∀ m, N ≤ m → assertContainerEqual m false {} b a = .pass := by
  have he := C200_equal_partial S hf n a b ha hb hc h
  subst he
  obtain ⟨N, hN⟩ := C201_refl_partial S hS a ha (.inl hc)
  exact ⟨N, fun m hm => hN m hm _ _⟩

example : assertContainerEqual 9 false {} (exC (.int 1) []) (exC (.int 1) []) = .pass ∧
    Conf exS0 .obj (exC (.int 1) []) :=
  ⟨by rfl, exC_conf exS0 rfl rfl rfl .int fun v hv => by simp at hv⟩

/-- a container with one field -/
def exC1 (v : V) : V := .obj none 0 "c" none 1 0 [("x", v)]

/-- A float passes against the whole number it is near to, the whole number does not pass against the float; and two floats
may pass in one order only, since the tolerance is relative to the second. -/
theorem C202_fails : ∀ n, 3 ≤ n →
    assertContainerEqual n false {} (exC1 (.flt 5000000001)) (exC1 (.int 5)) = .pass ∧
    assertContainerEqual n false {} (exC1 (.int 5)) (exC1 (.flt 5000000001)) = .fail ∧
    assertContainerEqual n false {} (exC1 (.flt 9999999)) (exC1 (.flt 10000000)) = .pass ∧
    assertContainerEqual n false {} (exC1 (.flt 10000000)) (exC1 (.flt 9999999)) = .fail := by
  intro n hn
  obtain ⟨m, rfl⟩ : ∃ m, n = m + 3 := ⟨n - 3, by omega⟩
  exact ⟨rfl, rfl, rfl, rfl⟩

/-! ## C203: the files of a round trip test are validated -/

/-- The file written is validated: if there is an error in it, one is raised; and one is raised only if there is. -/
theorem C203_written_partial (files : String → Option (List String)) (f g : String) (es : List String) (h : files f = some es) :
    (mixinValidate files f g ≠ none ↔ es ≠ []) ∧ ∀ e, mixinValidate files f g = some e → e ∈ es := by
  cases es with
  | nil =>
    refine ⟨?_, fun e he => ?_⟩
    · simp only [mixinValidate, h, Option.bind_some, List.head?_nil]
      cases files g <;> simp
    · simp only [mixinValidate, h, Option.bind_some, List.head?_nil] at he
      cases hg : files g <;> simp [hg] at he
  | cons e es =>
    simp [mixinValidate, h]

example : mixinValidate (fun f => if f = "a.h5" then some ["missing data type"] else none) "a.h5" "b.h5" =
    some "missing data type" := by decide +kernel

/-- The exported file is never validated: whatever the errors in it, none of them is raised (the file written is opened a
second time). -/
theorem C203_exported_fails (files : String → Option (List String)) (f g : String) (h : files f = some []) :
    mixinValidate files f g = none := by
  simp only [mixinValidate, h, Option.bind_some, List.head?_nil]
  cases files g <;> rfl

example : mixinValidate (fun f => if f = "b.h5" then some ["missing data type"] else some []) "a.h5" "b.h5" = none := by
  decide +kernel

end Verif.Same
