import Verif.Lemmas.MapperBuild

/-!
# Properties of the conversion between containers and builders
-/

namespace Verif.Mapper
open Verif

/-! ## What the statements talk about -/

/-- the attribute that belongs to the specification `uid` holds `v` -/
def Holds (E : Env) (td : TypeDef) (o : Oid) (uid : Nat) (v : FVal) : Prop :=
  ∃ a, td.spec2attr.get? uid = some a ∧ (E.heap o).fields.get? a = some v

/-- the attribute that belongs to `s` holds `x`, alone or in a collection, and `x` has the data type of `s` or a data
type below it -/
def Selects (E : Env) (td : TypeDef) (o : Oid) (s : TSpec) (x : Oid) : Prop :=
  (Holds E td o s.uid (.one x) ∨ ∃ l, Holds E td o s.uid (.many l) ∧ x ∈ l) ∧ s.dt ∈ E.hier (E.heap x).dt

theorem mem_vals {E : Env} {td : TypeDef} {o : Oid} {s : TSpec} {x : Oid} :
    x ∈ vals E td o s ↔ Selects E td o s x := by
  constructor
  · intro h
    refine ⟨?_, vals_hier h⟩
    unfold vals getAttrValue at h
    cases ha : td.spec2attr.get? s.uid with
    | none => rw [ha] at h; simp at h
    | some a =>
      cases hf : (E.heap o).fields.get? a with
      | none => rw [ha] at h; simp only [hf] at h; simp at h
      | some v =>
        rw [ha] at h
        simp only [hf] at h
        cases v with
        | none => simp [filterDt] at h
        | data d => simp [filterDt] at h
        | one y =>
          by_cases hm : s.dt ∈ E.hier (E.heap y).dt
          · simp only [filterDt, hm, if_true, List.mem_singleton] at h
            exact Or.inl ⟨a, ha, by rw [hf, h]⟩
          · simp [filterDt, hm] at h
        | many ys =>
          refine Or.inr ⟨ys, ⟨a, ha, hf⟩, ?_⟩
          simp only [filterDt] at h
          by_cases he : (ys.filter (fun x => decide (s.dt ∈ E.hier (E.heap x).dt))).isEmpty = true
          · simp [he] at h
          · simp only [he, Bool.false_eq_true, if_false] at h
            exact (List.mem_filter.1 h).1
  · rintro ⟨h, hd⟩
    rcases h with ⟨a, ha, hf⟩ | ⟨l, ⟨a, ha, hf⟩, hx⟩
    · rw [vals_one ha hf hd]; simp
    · have hm : x ∈ l.filter (fun x => decide (s.dt ∈ E.hier (E.heap x).dt)) :=
        List.mem_filter.2 ⟨hx, decide_eq_true hd⟩
      have hne : (l.filter (fun x => decide (s.dt ∈ E.hier (E.heap x).dt))).isEmpty = false := by
        cases hc : l.filter (fun x => decide (s.dt ∈ E.hier (E.heap x).dt)) with
        | nil => rw [hc] at hm; cases hm
        | cons => rfl
      simp only [vals, getAttrValue, ha, hf, filterDt, hne, Bool.false_eq_true, if_false]
      exact hm

/-- what a reader finds in attribute `a` of the container `o` after it was built and constructed again -/
def readBack (E : Env) (n : Nat) (o : Oid) (a : String) : Option FVal :=
  match buildObj E n o [] with
  | .error _ => none
  | .ok b => match construct E n none b with
    | .error _ => none
    | .ok (_, objs) => (Dict.get? objs o).bind (fun ob => ob.fields.get? a)

/-! ## An example: a type with attributes, datasets, a group without data type, children and a link -/

/-- a dataset type with an attribute -/
private def colT : TypeDef where
  isData := true
  body := .mk 20 "" true [{ uid := 21, name := "description" }] [] .nil []
  spec2attr := [(21, "description")]
  spec2carg := [(21, "description")]
  attrs := ["data", "description"]
  args := [("name", true), ("data", true), ("description", true)]

/-- a group type with an optional attribute -/
private def metaT : TypeDef where
  body := .mk 30 "" true [{ uid := 31, name := "note", required := false }] [] .nil []
  spec2attr := [(31, "note")]
  spec2carg := [(31, "note")]
  attrs := ["note"]
  args := [("name", true), ("note", false)]

private def rootMap : Dict Nat String :=
  [(1, "help"), (2, "owner"), (3, "timestamps"), (4, "timestamps__unit"), (5, "cols"), (7, "lab"), (8, "meta"),
   (9, "device"), (10, "spare")]

/-- a fixed attribute, a reference, a dataset with an attribute, any number of columns, a group without data type
around an attribute and a named child, and two optional links -/
private def rootT (links : List TSpec) : TypeDef where
  body := .mk 0 "" true
    [{ uid := 1, name := "help", value := some "H" }, { uid := 2, name := "owner", isRef := true }]
    [.untyped 3 "timestamps" true [{ uid := 4, name := "unit" }],
     .typed { uid := 5, name := none, dt := "Col", qty := .zeroOrMany }]
    (.untyped (.mk 6 "general" false [{ uid := 7, name := "lab", required := false }] []
      (.typed { uid := 8, name := some "meta", dt := "Meta", qty := .zeroOrOne } .nil) []) .nil)
    links
  spec2attr := rootMap
  spec2carg := rootMap
  attrs := ["help", "owner", "timestamps", "timestamps__unit", "cols", "lab", "meta", "device", "spare"]
  args := [("name", true), ("timestamps", true), ("help", false), ("owner", false), ("timestamps__unit", false),
    ("cols", false), ("lab", false), ("meta", false), ("device", false), ("spare", false)]

private def device : TSpec := { uid := 9, name := some "device", dt := "Dev", qty := .zeroOrOne }
private def spare : TSpec := { uid := 10, name := some "spare", dt := "Dev", qty := .zeroOrOne }
private def spare2 : TSpec := { uid := 10, name := some "spare", dt := "Dev2", qty := .zeroOrOne }

private def types (links : List TSpec) : String → Option TypeDef
  | "Root" => some (rootT links)
  | "Col" => some colT
  | "Col2" => some colT
  | "Meta" => some metaT
  | "Dev" => some metaT
  | _ => none

private def hier : String → List String
  | "Col2" => ["Col2", "Col"]
  | t => [t]

private theorem hier_nodup (t : String) : (hier t).Nodup := by
  unfold hier
  split
  · decide
  · simp

private def blank : Obj := ⟨"", "", none, none, true, []⟩

private def env (h : Dict Oid Obj) (types : String → Option TypeDef) : Env where
  heap := fun o => (Dict.get? h o).getD blank
  types := types
  hier := hier
  conv := fun _ d => .ok (if d = "wide" then "narrow" else d)
  built := fun _ => false
  source := some "f.h5"
  export_ := false

/-- the container `r` with the given attributes, columns `c1`, `c2`, a child `m`, and a device `d` of somebody else -/
private def heap (fields : Dict String FVal) : Dict Oid Obj :=
  [("r", ⟨"root", "Root", none, none, true, fields⟩),
   ("c1", ⟨"a", "Col", some "r", none, true, [("data", .data "1,2"), ("description", .data "x")]⟩),
   ("c2", ⟨"b", "Col2", some "r", none, true, [("data", .data "3,4"), ("description", .data "y")]⟩),
   ("c3", ⟨"c", "Col", some "elsewhere", none, true, [("data", .data "5"), ("description", .data "z")]⟩),
   ("m", ⟨"meta", "Meta", some "r", none, true, [("note", .data "n")]⟩),
   ("m2", ⟨"other", "Meta", some "r", none, true, [("note", .data "n")]⟩),
   ("d", ⟨"dev", "Dev", some "elsewhere", none, true, [("note", .none)]⟩),
   ("lost", ⟨"lost", "Col", none, none, true, [("data", .data "6"), ("description", .data "w")]⟩)]

private def full : Dict String FVal :=
  [("help", .data "H"), ("owner", .one "c1"), ("timestamps", .data "t"), ("timestamps__unit", .data "s"),
   ("cols", .many ["c1", "c2"]), ("lab", .none), ("meta", .one "m"), ("device", .one "d"), ("spare", .none)]

private theorem env_faithful {h : Dict Oid Obj} {types : String → Option TypeDef} (hb : types "" = none)
    (hm : h.all (fun q => q.2.modified) = true)
    (hf : h.all (fun q => match types q.2.dt with
      | none => true
      | some td => faithfulB (env h types) td q.1) = true) : FaithfulEnv (env h types) := by
  refine ⟨hier_nodup, ?_⟩
  intro o td ht
  have hF : Fresh (env h types) o := by
    intro x _
    simp only [env]
    cases hx : Dict.get? h x with
    | none => rfl
    | some ob => simpa using List.all_eq_true.1 hm _ (Dict.mem_of_get? hx)
  simp only [env] at ht
  cases ho : Dict.get? h o with
  | none => rw [ho] at ht; simp [blank, hb] at ht
  | some ob =>
    rw [ho] at ht
    simp only [Option.getD_some] at ht
    have := List.all_eq_true.1 hf _ (Dict.mem_of_get? ho)
    simp only [ht] at this
    exact faithfulB_sound hF this

private def E₀ : Env := env (heap full) (types [device, spare2])

private theorem E₀_faithful : FaithfulEnv E₀ := env_faithful rfl (by decide +kernel) (by decide +kernel)

/-! ## C115: what is written is read back -/

theorem built_below {E : Env} (h : SaneEnv E) : ∀ (o x : Oid), Below E o x → ∀ n ext b, buildObj E n o ext = .ok b →
    ∃ td, E.types (E.heap x).dt = some td := by
  have key : ∀ (o x : Oid), Child E o x → ∀ n ext b, buildObj E n o ext = .ok b →
      ∃ m e bx, buildObj E m x e = .ok bx := by
    rintro o x ⟨td, ht, hf, k, s, hks, hx, hp⟩ n ext b hb
    cases n with
    | zero => simp [buildObj] at hb
    | succ n =>
      obtain ⟨td', ht', hR⟩ := buildObj_ok h hb
      rw [ht] at ht'; cases ht'
      have ho : own E o k x = true := by simp [own, hp, typedS_kind _ k s hks]
      exact ⟨n, s.attrs, _, ((hR.body hf).2.2.2 k s hks x hx ho).1⟩
  intro o x hbl
  induction hbl with
  | child hc =>
    intro n ext b hb
    obtain ⟨m, e, bx, hbx⟩ := key _ _ hc n ext b hb
    cases m with
    | zero => simp [buildObj] at hbx
    | succ m =>
      obtain ⟨td, ht, _⟩ := buildObj_ok h hbx
      exact ⟨td, ht⟩
  | step hc _ ih =>
    intro n ext b hb
    obtain ⟨m, e, bx, hbx⟩ := key _ _ hc n ext b hb
    exact ih m e bx hbx

/-- **C115 (partial).** If the container `o` and everything below it can be stored by their specifications
(`FaithfulEnv`), then constructing the builder of `o` gives `o` and exactly the containers below it, and every one of
them is as it was: name, data type, parent and all attributes.  Only the flag `modified` is cleared and the source set
to the file.  Missing from the full statement: containers that do not meet the conditions; see the theorems
`C115_..._fails`, `C121_...` to `C124_...`. -/
theorem C115_roundtrip_partial {E : Env} (h : FaithfulEnv E) {n : Nat} {o : Oid} {ext : List ASpec} {b : Bld}
    (hb : buildObj E n o ext = .ok b) :
    ∃ objs, construct E n (E.heap o).parent b = .ok (o, objs) ∧
      (∀ x, (x = o ∨ Below E o x) ↔ ∃ ob, (x, ob) ∈ objs) ∧
      ∀ x ob, (x, ob) ∈ objs → ob = { E.heap x with source := E.source, modified := false } := by
  obtain ⟨objs, h1, h2⟩ := construct_build h.sane n o ext b (E.heap o).parent hb
  have hself : ∃ td, E.types (E.heap o).dt = some td := by
    cases n with
    | zero => simp [buildObj] at hb
    | succ n => obtain ⟨td, ht, _⟩ := buildObj_ok h.sane hb; exact ⟨td, ht⟩
  refine ⟨objs, h1, ?_, ?_⟩
  · intro x
    constructor
    · rintro (rfl | hx)
      · exact ⟨_, h2.self⟩
      · exact h2.all x hx
    · rintro ⟨ob, hob⟩
      rcases h2.only _ hob with he | ⟨hx, _⟩
      · exact Or.inl (Prod.mk.inj he).1
      · exact Or.inr hx
  · intro x ob hob
    have key : ob = restored E x (E.heap x).parent ∧ ∃ td, E.types (E.heap x).dt = some td := by
      rcases h2.only _ hob with he | ⟨hx, he⟩
      · obtain ⟨rfl, rfl⟩ := Prod.mk.inj he
        exact ⟨rfl, hself⟩
      · exact ⟨he, built_below h.sane o x hx n ext b hb⟩
    obtain ⟨he, td, ht⟩ := key
    rw [he, restored_eq ht (h.obj x td ht)]

/-- The example meets the conditions and is built, with four containers. -/
example : FaithfulEnv E₀ ∧ ((buildObj E₀ 3 "r" []).toOption.map (fun b =>
    ((construct E₀ 3 none b).toOption.map (fun r => r.2.map Prod.fst)))) = some (some ["m", "c1", "c2", "r"]) :=
  ⟨E₀_faithful, by decide +kernel⟩

/-- **C115 (partial).** Reading what was written never fails. -/
theorem C115_readable_partial {E : Env} (h : FaithfulEnv E) {n : Nat} {o : Oid} {ext : List ASpec} {b : Bld}
    (hb : buildObj E n o ext = .ok b) (par : Option Oid) : ∃ r, construct E n par b = .ok r := by
  obtain ⟨objs, h1, _⟩ := construct_build h.sane n o ext b par hb
  exact ⟨_, h1⟩

/-- **C115 fails** as stated: an empty collection is read back as nothing. -/
theorem C115_empty_list_fails : ∃ (E : Env) (o : Oid) (a : String),
    (E.heap o).fields.get? a = some (.many []) ∧ readBack E 3 o a = some .none :=
  ⟨env (heap (full.set "cols" (.many []))) (types [device, spare2]), "r", "cols", by decide +kernel, by decide +kernel⟩

/-- **C115 fails** as stated: the attributes of a dataset without data type are lost if there is no data. -/
theorem C115_dataset_attribute_fails : ∃ (E : Env) (o : Oid) (a : String),
    (E.heap o).fields.get? a = some (.data "s") ∧ readBack E 3 o a = some .none :=
  ⟨env ((heap (full.set "timestamps" .none)))
    (fun t => (types [device, spare2] t).map (fun td => { td with args := td.args.map (fun q => (q.1, false)) })),
    "r", "timestamps__unit", by decide +kernel, by decide +kernel⟩

/-- **C115 fails** as stated: a value that is converted on the way is read back converted. -/
theorem C115_converted_fails : ∃ (E : Env) (o : Oid) (a : String),
    (E.heap o).fields.get? a = some (.data "wide") ∧ readBack E 3 o a = some (.data "narrow") :=
  ⟨env (heap (full.set "timestamps" (.data "wide"))) (types [device, spare2]), "r", "timestamps",
    by decide +kernel, by decide +kernel⟩

/-- **C115 fails** as stated: an attribute whose value the specification fixes is stored with that value, whatever the
container holds. -/
theorem C115_fixed_value_fails : ∃ (E : Env) (o : Oid) (a : String),
    (E.heap o).fields.get? a = some (.data "mine") ∧ readBack E 3 o a = some (.data "H") :=
  ⟨env (heap (full.set "help" (.data "mine"))) (types [device, spare2]), "r", "help", by decide +kernel,
    by decide +kernel⟩

/-! ## C116: a builder identifies its container -/

/-- **C116.** Every builder made from a container carries the name of the container, or the name its data type
prescribes, the data type, the namespace and the object id; it is a dataset iff the data type is one. -/
theorem C116_identity {E : Env} {n : Nat} {o : Oid} {ext : List ASpec} {b : Bld} (hb : buildObj E n o ext = .ok b) :
    ∃ td, E.types (E.heap o).dt = some td ∧ b.isData = td.isData ∧
      b.name = td.fixedName.getD (E.heap o).name ∧
      b.attrs.get? "data_type" = some (.data (E.heap o).dt) ∧ b.attrs.get? "namespace" = some (.data "core") ∧
      b.attrs.get? "object_id" = some (.data o) := by
  cases n with
  | zero => simp [buildObj] at hb
  | succ n =>
    obtain ⟨td, ht, hR⟩ := build_ok hb
    have text : ∀ {m t}, textAttr b m = some t → b.attrs.get? m = some (.data t) := by
      intro m t h
      unfold textAttr at h
      split at h
      · rename_i d hd; rw [hd, Option.some.inj h]
      · cases h
    exact ⟨td, ht, hR.sort, hR.name, text hR.dt, text hR.ns, text hR.oid⟩

example : ((buildObj E₀ 3 "r" []).toOption.map (fun b => (b.isData, b.name, b.attrs.get? "data_type",
    b.attrs.get? "object_id"))) = some (false, "root", some (.data "Root"), some (.data "r")) ∧
    ((buildObj E₀ 3 "c2" []).toOption.map (fun b => (b.isData, b.name, b.data, b.attrs.get? "data_type"))) =
      some (true, "b", some "3,4", some (.data "Col2")) := by decide +kernel

/-- **C116.** Containers with different object ids never have the same builder. -/
theorem C116_injective {E : Env} {n m : Nat} {o o' : Oid} {ext ext' : List ASpec} {b : Bld}
    (h : buildObj E n o ext = .ok b) (h' : buildObj E m o' ext' = .ok b) : o = o' := by
  obtain ⟨_, _, _, _, _, _, h1⟩ := C116_identity h
  obtain ⟨_, _, _, _, _, _, h2⟩ := C116_identity h'
  rw [h1] at h2
  exact AVal.data.inj (Option.some.inj h2)

example : (buildObj E₀ 3 "c1" []).toOption.isSome = true ∧ (buildObj E₀ 3 "c2" []).toOption.isSome = true := by
  decide +kernel

/-! ## C117: the attributes of a builder -/

section C117
variable {E : Env} {n : Nat} {o : Oid} {ext : List ASpec} {b : Bld} {td : TypeDef} {s : ASpec}

/-- **C117 (partial).** An attribute whose value the specification fixes is stored with that value, converted. -/
theorem C117_fixed_partial (hb : buildObj E n o ext = .ok b) (ht : E.types (E.heap o).dt = some td)
    (hn : (td.body.attrs.map ASpec.name).Nodup) (hs : s ∈ td.body.attrs) (hr : s.name ∉ reserved) {d : Dat}
    (hv : s.value = some d) : ∃ d', E.conv s.uid d = .ok d' ∧ b.attrs.get? s.name = some (.data d') := by
  cases n with
  | zero => simp [buildObj] at hb
  | succ n =>
    obtain ⟨td', ht', hR⟩ := build_ok hb
    rw [ht] at ht'; cases ht'
    have hm := allAttrs_own (ext := ext) hn hs
    obtain ⟨v, hov⟩ := hR.each s hm
    have := hR.attrs s hm hr
    unfold attrRes at this
    unfold attrOut attrVal at hov this
    simp only [hv] at hov this
    by_cases hre : s.isRef = true
    · simp [hre] at hov
    · simp only [hre, Bool.false_eq_true, if_false] at hov this
      cases hc : E.conv s.uid d with
      | error e => simp [hc] at hov
      | ok d' => simp only [hc] at this; exact ⟨d', rfl, this⟩

/-- **C117 (partial).** Otherwise data of the container is stored, converted. -/
theorem C117_data_partial (hb : buildObj E n o ext = .ok b) (ht : E.types (E.heap o).dt = some td)
    (hn : (td.body.attrs.map ASpec.name).Nodup) (hs : s ∈ td.body.attrs) (hr : s.name ∉ reserved)
    (hv : s.value = none) {d : Dat} (hd : Holds E td o s.uid (.data d)) :
    ∃ d', E.conv s.uid d = .ok d' ∧ b.attrs.get? s.name = some (.data d') := by
  obtain ⟨a, ha, hf⟩ := hd
  cases n with
  | zero => simp [buildObj] at hb
  | succ n =>
    obtain ⟨td', ht', hR⟩ := build_ok hb
    rw [ht] at ht'; cases ht'
    have hm := allAttrs_own (ext := ext) hn hs
    obtain ⟨v, hov⟩ := hR.each s hm
    have := hR.attrs s hm hr
    unfold attrRes at this
    unfold attrOut attrVal getAttrValue at hov this
    simp only [hv, ha, hf] at hov this
    by_cases hre : s.isRef = true
    · simp [hre] at hov
    · simp only [hre, Bool.false_eq_true, if_false] at hov this
      cases hc : E.conv s.uid d with
      | error e => simp [hc] at hov
      | ok d' => simp only [hc] at this; exact ⟨d', rfl, this⟩

/-- **C117 (partial).** A container is stored as a reference to it. -/
theorem C117_reference_partial (hb : buildObj E n o ext = .ok b) (ht : E.types (E.heap o).dt = some td)
    (hn : (td.body.attrs.map ASpec.name).Nodup) (hs : s ∈ td.body.attrs) (hr : s.name ∉ reserved)
    (hv : s.value = none) {x : Oid} (hd : Holds E td o s.uid (.one x)) :
    s.isRef = true ∧ b.attrs.get? s.name = some (.ref x) := by
  obtain ⟨a, ha, hf⟩ := hd
  cases n with
  | zero => simp [buildObj] at hb
  | succ n =>
    obtain ⟨td', ht', hR⟩ := build_ok hb
    rw [ht] at ht'; cases ht'
    have hm := allAttrs_own (ext := ext) hn hs
    obtain ⟨v, hov⟩ := hR.each s hm
    have := hR.attrs s hm hr
    unfold attrRes at this
    unfold attrOut attrVal getAttrValue at hov this
    simp only [hv, ha, hf] at hov this
    by_cases hre : s.isRef = true
    · simp only [hre, if_true] at this
      exact ⟨hre, this⟩
    · simp [hre] at hov

/-- **C117 (partial).** Where the container holds nothing the default of the specification is stored, converted, and
without a default the builder has no such attribute. -/
theorem C117_default_partial (hb : buildObj E n o ext = .ok b) (ht : E.types (E.heap o).dt = some td)
    (hn : (td.body.attrs.map ASpec.name).Nodup) (hs : s ∈ td.body.attrs) (hr : s.name ∉ reserved)
    (hv : s.value = none) (hd : Holds E td o s.uid .none) :
    (s.default = none → b.attrs.get? s.name = none) ∧
    ∀ d, s.default = some d → ∃ d', E.conv s.uid d = .ok d' ∧ b.attrs.get? s.name = some (.data d') := by
  obtain ⟨a, ha, hf⟩ := hd
  cases n with
  | zero => simp [buildObj] at hb
  | succ n =>
    obtain ⟨td', ht', hR⟩ := build_ok hb
    rw [ht] at ht'; cases ht'
    have hm := allAttrs_own (ext := ext) hn hs
    obtain ⟨v, hov⟩ := hR.each s hm
    have := hR.attrs s hm hr
    unfold attrRes at this
    unfold attrOut attrVal getAttrValue at hov this
    simp only [hv, ha, hf] at hov this
    constructor
    · intro hdn
      simpa [hdn] using this
    · intro d hds
      simp only [hds] at hov this
      by_cases hre : s.isRef = true
      · simp [hre] at hov
      · simp only [hre, Bool.false_eq_true, if_false] at hov this
        cases hc : E.conv s.uid d with
        | error e => simp [hc] at hov
        | ok d' => simp only [hc] at this; exact ⟨d', rfl, this⟩

end C117

private def noteDefault : ASpec := { uid := 31, name := "note", default := some "wide" }

private def withDefault (td : TypeDef) : TypeDef := { td with body := .mk 30 "" true [noteDefault] [] .nil [] }

/-- The cases: fixed, reference, data, nothing, default. -/
example : ((buildObj E₀ 3 "r" []).toOption.map (fun b => (b.attrs.get? "help", b.attrs.get? "owner"))) =
      some (some (.data "H"), some (.ref "c1")) ∧
    ((buildObj E₀ 3 "c1" []).toOption.map (fun b => b.attrs.get? "description")) = some (some (.data "x")) ∧
    ((buildObj E₀ 3 "d" []).toOption.map (fun b => b.attrs.get? "note")) = some none ∧
    ((buildObj (env (heap full) (fun t => (types [device, spare2] t).map withDefault)) 3 "d" []).toOption.map (fun b => b.attrs.get? "note")) = some (some (.data "narrow")) := by decide +kernel

/-- **C117 fails** for attributes that a specification adds where it includes a type: the attribute `data2` of the
device is not written, although the container has an attribute of that name and holds a value, because the mapper of
the type does not know the added specification. -/
theorem C117_added_attribute_fails : ∃ (E : Env) (o : Oid) (ext : List ASpec), (∃ s ∈ ext, s.name = "data2") ∧
    (E.heap o).fields.get? "data2" = some (.data "v") ∧
    ((buildObj E 3 o ext).toOption.map (fun b => b.attrs.get? "data2")) = some none :=
  ⟨env [("d", ⟨"dev", "Dev", none, none, true, [("note", .none), ("data2", .data "v")]⟩)]
    (types [device, spare2]), "d", [{ uid := 50, name := "data2" }], by simp, by decide +kernel,
    by decide +kernel⟩

/-! ## C118: groups without data type -/

/-- the value a specification stores, `none` if it stores nothing -/
def Stored (E : Env) (td : TypeDef) (o : Oid) (l : Leaf) : Prop := leafVal E td o l ≠ none

/-- **C118 (partial).** A group without data type directly below a container is written iff it is required or some
specification in it, at any depth, has something to store. -/
theorem C118_written_iff_partial {E : Env} (h : SaneEnv E) {n : Nat} {o : Oid} {ext : List ASpec} {b : Bld}
    {td : TypeDef} (ht : E.types (E.heap o).dt = some td) (hd : td.isData = false)
    (hb : buildObj E n o ext = .ok b) {g : GSpec} (hg : Item.grp g ∈ rootItems td.body) :
    Dict.has b.groups g.name = true ↔ g.required = true ∨ ∃ l ∈ sLeaves g, Stored E td o l := by
  cases n with
  | zero => simp [buildObj] at hb
  | succ n =>
    obtain ⟨td', ht', hR⟩ := buildObj_ok h hb
    rw [ht] at ht'; cases ht'
    obtain ⟨hS, _⟩ := (h.obj o td ht).type.body hd
    obtain ⟨_, b2, _, hB⟩ := hR.body hd
    have hin : ∀ k s, (k, s) ∈ typedS g → (k, s) ∈ typedS td.body := by
      intro k s hks
      have key : ∀ l : GList, Item.grp g ∈ gItems l → (k, s) ∈ typedG l := by
        intro l
        induction l using GList.rec (motive_1 := fun _ => True) with
        | mk => trivial
        | nil => intro h; simp [gItems] at h
        | typed t l ih => intro h; simp only [gItems, List.mem_cons, reduceCtorEq, false_or] at h; simp [typedG, ih h]
        | untyped g' l _ ih =>
          intro h
          simp only [gItems, List.mem_cons, Item.grp.injEq] at h
          simp only [typedG, List.mem_append]
          rcases h with rfl | h
          · exact Or.inl hks
          · exact Or.inr (ih h)
      generalize hbd : td.body = G at hg ⊢
      cases G with
      | mk uid name req attrs dsets groups links =>
        simp only [rootItems, GSpec.dsets, GSpec.groups, GSpec.links, GSpec.attrs, List.mem_append] at hg
        simp only [typedS, List.mem_append]
        rcases hg with hg | hg | hg | hg
        · obtain ⟨ds, _, he⟩ := List.mem_map.1 hg
          cases ds <;> cases he
        · exact Or.inr (key groups hg)
        · obtain ⟨_, _, he⟩ := List.mem_map.1 hg; cases he
        · obtain ⟨_, _, he⟩ := List.mem_map.1 hg; cases he
    have hC : ConOK E (buildObj E n) o (conOf E n o) := by
      refine ⟨?_, fun _ => rfl, fun x e b hb => buildObj_dt h hb, h.hier⟩
      intro x e hx _
      obtain ⟨objs, h1, _⟩ := construct_build h n x e _ (some o) hx
      have h2 : conOf E n o (.own (bo (buildObj E n) x e)) = .ok (x, objs) := h1
      rw [h2, os, h2]
    have hempty : isEmpty (inner E (buildObj E n) td o g) = true ↔ ∀ l ∈ sLeaves g, leafVal E td o l = none := by
      rw [← ev0S_eq_nil]
      exact ⟨fun he => (ev0S_nil hC g (fun k s hks => hB k s (hin k s hks)) he).1, inner_nil g⟩
    have hpl : (!isEmpty (inner E (buildObj E n) td o g) || g.required) = true ↔
        g.required = true ∨ ∃ l ∈ sLeaves g, Stored E td o l := by
      cases he : isEmpty (inner E (buildObj E n) td o g) with
      | true =>
        have := hempty.1 he
        simp only [Bool.not_true, Bool.false_or]
        refine ⟨Or.inl, ?_⟩
        rintro (hr | ⟨l, hl, hst⟩)
        · exact hr
        · exact absurd (this l hl) hst
      | false =>
        simp only [Bool.not_false, Bool.true_or, true_iff]
        by_cases hex : ∃ l ∈ sLeaves g, Stored E td o l
        · exact Or.inr hex
        · exfalso
          rw [hempty.2 (fun l hl => Classical.not_not.1 (fun hne => hex ⟨l, hl, hne⟩))] at he
          cases he
    rw [← hpl, Dict.has_iff, b2, keys_flatMap, List.mem_flatMap]
    constructor
    · rintro ⟨i, hi, hmem⟩
      have hnm : g.name ∈ Item.names E td o (.grp g) := by simp [Item.names]
      have : i = .grp g := flatMap_unique hS.names hi hg (mem_names_g hS hi hmem) hnm
      subst this
      simp only [gOf] at hmem
      split at hmem
      · rename_i hp; exact hp
      · simp [Dict.keys] at hmem
    · intro hp
      refine ⟨_, hg, ?_⟩
      simp only [gOf, hp, if_true]
      simp [Dict.keys]

/-- The optional group `general` is written for the child in it, and left out without. -/
example : (buildObj E₀ 3 "r" []).toOption.map (fun b => Dict.has b.groups "general") = some true ∧
    (buildObj (env (heap (full.set "meta" .none)) (types [device, spare2])) 3 "r" []).toOption.map
      (fun b => Dict.has b.groups "general") = some false := by decide +kernel

/-- the optional group `general` of a type that also holds any number of `Meta` -/
private def clashG : GSpec := .mk 42 "general" false [{ uid := 43, name := "lab", required := false }] [] .nil []

private def clashT : TypeDef where
  body := .mk 40 "" true [] [] (.typed { uid := 41, name := none, dt := "Meta", qty := .zeroOrMany } (.untyped clashG .nil)) []
  spec2attr := [(41, "metas"), (43, "lab")]
  spec2carg := [(41, "metas"), (43, "lab")]
  attrs := ["metas", "lab"]
  args := [("name", true), ("metas", false), ("lab", false)]

/-- a container of this type with a `Meta` of the name `general` -/
private def clashE (lab : FVal) : Env :=
  env [("k", ⟨"k", "Clash", none, none, true, [("metas", .many ["g"]), ("lab", lab)]⟩),
    ("g", ⟨"general", "Meta", some "k", none, true, [("note", .data "n")]⟩)]
    (fun t => if t = "Clash" then some clashT else if t = "Meta" then some metaT else none)

/-- **C118 fails** when a child has the name of a group without data type: there is nothing to store in the group, yet a
group of its name is written, that of the child; and if there is something to store, it is written into the child. -/
theorem C118_name_clash_fails :
    (∃ g, Item.grp g ∈ rootItems clashT.body ∧ g.name = "general" ∧ g.required = false ∧
      (∀ l ∈ sLeaves g, ¬ Stored (clashE .none) clashT "k" l) ∧
      (buildObj (clashE .none) 3 "k" []).toOption.map (fun b => Dict.has b.groups g.name) = some true) ∧
    (buildObj (clashE (.data "x")) 3 "k" []).toOption.map (fun b => b.groups.map (fun q => (q.1, q.2.attrs))) =
      some [("general", [("note", .data "n"), ("namespace", .data "core"), ("data_type", .data "Meta"), ("object_id", .data "g"),
        ("lab", .data "x")])] := by
  refine ⟨⟨clashG, by simp [clashT, rootItems, gItems, GSpec.dsets, GSpec.groups], rfl, rfl, ?_, by decide +kernel⟩, by decide +kernel⟩
  intro l hl
  simp [clashG, sLeaves, gLeaves, dsLeaves] at hl
  subst hl
  have : (leafVal (clashE .none) clashT "k" (.attr { uid := 43, name := "lab", required := false })).isNone = true := by decide +kernel
  simpa [Stored] using this

/-! ## C119: what cannot be written makes the build fail -/

/-- **C119.** If a container is built, every container that one of its specifications selects has a parent (or comes
from another file and is already built), and is new, modified, exported or has been written before. -/
theorem C119_admitted {E : Env} {n : Nat} {o : Oid} {ext : List ASpec} {b : Bld} {td : TypeDef}
    (hb : buildObj E n o ext = .ok b) (ht : E.types (E.heap o).dt = some td) (hd : td.isData = false)
    {k : Kind} {s : TSpec} (hs : Leaf.typed k s ∈ sLeaves td.body) {x : Oid} (hx : Selects E td o s x) :
    ((E.heap x).parent ≠ none ∨ ((E.heap x).source ≠ (E.heap o).source ∧ E.built x = true)) ∧
    ((E.heap x).modified = true ∨ E.export_ = true ∨ (E.heap x).source ≠ none) := by
  cases n with
  | zero => simp [buildObj] at hb
  | succ n =>
    obtain ⟨td', ht', hR⟩ := build_ok hb
    rw [ht] at ht'; cases ht'
    exact (hR.parts hd k s hs x (mem_vals.2 hx)).1

/-- **C119.** If a container is built, every child of it that is new, modified or exported was built: a failure
anywhere below makes the whole build fail. -/
theorem C119_children {E : Env} {n : Nat} {o : Oid} {ext : List ASpec} {b : Bld} {td : TypeDef}
    (hb : buildObj E n o ext = .ok b) (ht : E.types (E.heap o).dt = some td) (hd : td.isData = false)
    {k : Kind} {s : TSpec} (hs : Leaf.typed k s ∈ sLeaves td.body) (hk : k ≠ .link) {x : Oid}
    (hx : Selects E td o s x) (hp : (E.heap x).parent = some o)
    (hm : (E.heap x).modified = true ∨ E.export_ = true) : ∃ m bx, m < n ∧ buildObj E m x s.attrs = .ok bx := by
  cases n with
  | zero => simp [buildObj] at hb
  | succ n =>
    obtain ⟨td', ht', hR⟩ := build_ok hb
    rw [ht] at ht'; cases ht'
    obtain ⟨bx, hbx⟩ := (hR.parts hd k s hs x (mem_vals.2 hx)).2 hk hp hm
    exact ⟨n, bx, Nat.lt_succ_self n, hbx⟩

/-- A container without parent among the columns makes the build fail. -/
example : (match buildObj (env (heap (full.set "cols" (.many ["c1", "lost"]))) (types [device, spare2])) 3 "r" [] with
    | .error .orphan => true | _ => false) = true ∧
    (buildObj E₀ 3 "r" []).toOption.isSome = true := by decide +kernel

/-! ## C120: warnings about quantities -/

/-- the number of containers that the value of an attribute supplies -/
def count : FVal → Nat
  | .none => 0
  | .data _ => 0
  | .one _ => 1
  | .many l => l.length

/-- the quantity of a specification allows `n` containers -/
def Allows : Qty → Nat → Prop
  | .zeroOrOne, n => n ≤ 1
  | .zeroOrMany, _ => True
  | .oneOrMany, n => 1 ≤ n
  | .num k, n => n = k

/-- **C120 (partial).** A build warns about the value of a specification with data type iff the quantity does not allow
the number of containers.  Missing: the quantity 0, see `C120_zero_fails`.  (A collection without members does not
reach the check: it counts as nothing.) -/
theorem C120_warns_iff_partial (s : TSpec) (v : FVal) (h0 : s.qty ≠ .num 0) (hd : ∀ d, v ≠ .data d)
    (he : v ≠ .many []) : checkQuantity s v ≠ none ↔ ¬ Allows s.qty (count v) := by
  cases v with
  | data d => exact absurd rfl (hd d)
  | none =>
    cases hq : s.qty with
    | num k =>
      have : k ≠ 0 := fun e => h0 (by rw [hq, e])
      simp [checkQuantity, hq, Qty.required, Allows, count, Ne.symm this]
    | _ => simp [checkQuantity, hq, Qty.required, Allows, count]
  | one x =>
    cases hq : s.qty with
    | num k =>
      by_cases hk : k = 1
      · subst hk; simp [checkQuantity, hq, Allows, count]
      · simp [checkQuantity, hq, Allows, count, hk, Ne.symm hk]
    | _ => simp [checkQuantity, hq, Allows, count]
  | many l =>
    have hl : l.length ≠ 0 := by
      intro e
      exact he (by rw [List.length_eq_zero_iff.1 e])
    cases hq : s.qty with
    | zeroOrOne =>
      simp only [checkQuantity, hq, Qty.isMany, Allows, count]
      by_cases h1 : 1 < l.length
      · simp [h1, hl]
      · simp [h1, Nat.le_of_not_lt h1]
    | zeroOrMany => simp [checkQuantity, hq, Qty.isMany, Allows]
    | oneOrMany =>
      simp only [checkQuantity, hq, Qty.isMany, Allows, count]
      simp [Nat.one_le_iff_ne_zero, hl]
    | num k =>
      simp only [checkQuantity, hq, Allows, count]
      by_cases hk : l.length = k
      · subst hk
        by_cases h1 : l.length = 1
        · simp [h1]
        · have : Qty.isMany (.num l.length) = true := by
            unfold Qty.isMany
            split
            · rename_i e; exact absurd (Qty.num.inj e) h1
            · rename_i e; cases e
            · rfl
          simp [this]
      · simp [hk, hl]

example : checkQuantity { uid := 1, name := none, dt := "T", qty := .oneOrMany } .none = some (.missing 1) ∧
    checkQuantity { uid := 1, name := none, dt := "T", qty := .num 2 } (.many ["a"]) = some (.quantity 1 1) ∧
    checkQuantity { uid := 1, name := none, dt := "T", qty := .zeroOrOne } (.many ["a", "b"]) = some (.quantity 1 2) ∧
    checkQuantity { uid := 1, name := none, dt := "T", qty := .num 2 } (.many ["a", "b"]) = none := by decide

/-- **C120 fails** for the quantity 0: nothing is there, as it should, and the build warns that it is missing. -/
theorem C120_zero_fails : ∃ s : TSpec, s.qty = .num 0 ∧ Allows s.qty (count .none) ∧ checkQuantity s .none ≠ none :=
  ⟨{ uid := 1, name := none, dt := "T", qty := .num 0 }, rfl, rfl, by decide⟩

/-! ## C121 to C124: which container is read for which specification -/

theorem restored_leaf {E : Env} {td : TypeDef} {o : Oid} (ht : E.types (E.heap o).dt = some td) (h : Sane E td o)
    (hd : td.isData = false) {l : Leaf} (hl : l ∈ sLeaves td.body) {a : String}
    (hc : td.spec2carg.get? l.uid = some a) (ha : a ∈ td.attrs) (har : a ∈ td.args.map Prod.fst) (par : Option Oid) :
    (restored E o par).fields.get? a = some (((leafVal E td o l).map Prod.fst).getD .none) := by
  have hlv : leaves td = sLeaves td.body := by simp [leaves, hd]
  have hget := constArgs_leaf (E := E) (p := o) h.uids.1 h.inj (l := l) (by rw [hlv]; exact hl) hc [] rfl
  have hca : cargsOf E td o = constArgs td ((leaves td).filterMap (entry E td o)) [] := by simp only [cargsOf, hd]
  rw [← hca] at hget
  have key : ∀ (L : List String) (f : String → FVal), a ∈ L → Dict.get? (L.map (fun a => (a, f a))) a = some (f a) := by
    intro L f
    induction L with
    | nil => intro h; cases h
    | cons c L ih =>
      intro h
      by_cases hca : c = a
      · subst hca; simp [Dict.get?]
      · rcases List.mem_cons.1 h with e | h
        · exact absurd e.symm hca
        · simp only [List.map_cons, Dict.get?, hca, if_false]
          exact ih h
  have : (td.args.map Prod.fst).contains a = true := by simpa using har
  simp only [restored, ht, initFields]
  rw [key _ _ ha, if_pos this, hget]

/-- The attribute of a specification, read back. -/
theorem readBack_leaf {E : Env} (h : SaneEnv E) {n : Nat} {o : Oid} {b : Bld} {td : TypeDef}
    (hb : buildObj E n o [] = .ok b) (ht : E.types (E.heap o).dt = some td) (hd : td.isData = false)
    {l : Leaf} (hl : l ∈ sLeaves td.body) {a : String} (hc : td.spec2carg.get? l.uid = some a) (ha : a ∈ td.attrs)
    (har : a ∈ td.args.map Prod.fst) :
    readBack E n o a = some (((leafVal E td o l).map Prod.fst).getD .none) := by
  obtain ⟨objs, h1, h2⟩ := construct_build h n o [] b none hb
  unfold readBack
  simp only [hb, h1]
  have hk : o ∈ Dict.keys objs := Dict.mem_keys_of_mem h2.self
  cases hg : Dict.get? objs o with
  | none => exact absurd hk (Dict.get?_eq_none_iff.1 hg)
  | some ob =>
    simp only [Option.bind_some]
    rcases h2.only _ (Dict.mem_of_get? hg) with he | ⟨_, he⟩
    · rw [(Prod.mk.inj he).2]
      exact restored_leaf ht (h.obj o td ht) hd hl hc ha har none
    · simp only at he
      rw [he]
      exact restored_leaf ht (h.obj o td ht) hd hl hc ha har _

/-- the specification feeds attribute `a` of the class, which the constructor takes -/
def Feeds (td : TypeDef) (uid : Nat) (a : String) : Prop :=
  td.spec2carg.get? uid = some a ∧ a ∈ td.attrs ∧ a ∈ td.args.map Prod.fst

/-- the members of the value of an attribute -/
def members : FVal → List Oid
  | .none => []
  | .data _ => []
  | .one x => [x]
  | .many l => l

/-- **C121 (partial).** A specification of a link for which the container holds nothing is read back as nothing.
Missing: `SaneEnv` demands that no link for another specification in the same group leads to a container of exactly
the target type; see `C121_absent_link_fails`. -/
theorem C121_absent_link_partial {E : Env} (h : SaneEnv E) {n : Nat} {o : Oid} {b : Bld} {td : TypeDef}
    (hb : buildObj E n o [] = .ok b) (ht : E.types (E.heap o).dt = some td) (hd : td.isData = false)
    {s : TSpec} (hl : Leaf.typed .link s ∈ sLeaves td.body) {a : String} (ha : Feeds td s.uid a)
    (hn : ∀ x, ¬ Selects E td o s x) : readBack E n o a = some .none := by
  have hv : vals E td o s = [] := List.eq_nil_iff_forall_not_mem.2 (fun x hx => hn x (mem_vals.1 hx))
  rw [readBack_leaf h hb ht hd hl ha.1 ha.2.1 ha.2.2]
  simp [leafVal, hv]

example : SaneEnv E₀ ∧ readBack E₀ 3 "r" "spare" = some .none ∧ readBack E₀ 3 "r" "device" = some (.one "d") :=
  ⟨E₀_faithful.sane, by decide +kernel, by decide +kernel⟩

/-- **C121 fails**: the optional links `device` and `spare` have the same target type, `spare` is left empty and
`device` leads to `d`.  Read back, `spare` leads to `d` as well. -/
theorem C121_absent_link_fails : ∃ (E : Env) (o : Oid), (E.heap o).fields.get? "spare" = some .none ∧
    readBack E 3 o "device" = some (.one "d") ∧ readBack E 3 o "spare" = some (.one "d") :=
  ⟨env (heap full) (types [device, spare]), "r", by decide +kernel, by decide +kernel, by decide +kernel⟩

/-- **C122 (partial).** For a specification without a name, the containers are read in the order in which they were
held, those that belong to the container before those that are linked to; nothing is lost or added. -/
theorem C122_order_partial {E : Env} (h : SaneEnv E) {n : Nat} {o : Oid} {b : Bld} {td : TypeDef}
    (hb : buildObj E n o [] = .ok b) (ht : E.types (E.heap o).dt = some td) (hd : td.isData = false)
    {k : Kind} {s : TSpec} (hk : k ≠ .link) (hl : Leaf.typed k s ∈ sLeaves td.body) (hn : s.name = none) {a : String}
    (ha : Feeds td s.uid a) {l : List Oid} (hh : Holds E td o s.uid (.many l))
    (hty : ∀ x ∈ l, s.dt ∈ E.hier (E.heap x).dt) :
    (readBack E n o a).map members = some (l.filter (fun x => decide ((E.heap x).parent = some o)) ++
      l.filter (fun x => decide ((E.heap x).parent ≠ some o))) := by
  rw [readBack_leaf h hb ht hd hl ha.1 ha.2.1 ha.2.2]
  obtain ⟨a', ha', hf⟩ := hh
  by_cases hle : l = []
  · subst hle
    have : vals E td o s = [] := by simp [vals, getAttrValue, ha', hf, filterDt]
    simp [leafVal, this, members]
  · have hvl := vals_many ha' hf hle hty
    have hne : l.isEmpty = false := by cases l with
      | nil => exact absurd rfl hle
      | cons => rfl
    have e1 : own E o k = fun x => decide ((E.heap x).parent = some o) := by funext x; simp [own, hk]
    have e2 : (fun x => !own E o k x) = fun x => decide ((E.heap x).parent ≠ some o) := by funext x; simp [own, hk]
    have hro : readOrder E td o k s = l.filter (fun x => decide ((E.heap x).parent = some o)) ++
        l.filter (fun x => decide ((E.heap x).parent ≠ some o)) := by
      unfold readOrder
      rw [hvl, e2, e1]
    simp only [leafVal, hvl, hne, Bool.false_eq_true, if_false, expT, hn, hro, Option.map_some, Option.getD_some]
    have hmem : ∀ (m : Bool) (L : List Oid), members (flatten m L) = L := by
      intro m L
      unfold flatten
      split
      · cases m <;> rfl
      · rfl
    rw [hmem]

private def E₁ : Env := env (heap (full.set "cols" (.many ["c3", "c1"]))) (types [device, spare2])

/-- **C122 fails**: a linked column before an own column comes back after it. -/
theorem C122_order_fails : ∃ (E : Env) (o : Oid), (E.heap o).fields.get? "cols" = some (.many ["c3", "c1"]) ∧
    readBack E 3 o "cols" = some (.many ["c1", "c3"]) := ⟨E₁, "r", by decide +kernel, by decide +kernel⟩

example : readBack E₀ 3 "r" "cols" = some (.many ["c1", "c2"]) := by decide +kernel

/-- **C123 (partial).** For a specification with a name, the container that was held is read back.  Missing: `SaneEnv`
demands that a child held for a specification with a name has that name; see `C123_named_child_fails`. -/
theorem C123_named_partial {E : Env} (h : SaneEnv E) {n : Nat} {o : Oid} {b : Bld} {td : TypeDef}
    (hb : buildObj E n o [] = .ok b) (ht : E.types (E.heap o).dt = some td) (hd : td.isData = false)
    {k : Kind} {s : TSpec} (hl : Leaf.typed k s ∈ sLeaves td.body) (hn : s.name.isSome) {a : String}
    (ha : Feeds td s.uid a) {x : Oid} (hh : Holds E td o s.uid (.one x)) (hty : s.dt ∈ E.hier (E.heap x).dt) :
    readBack E n o a = some (.one x) := by
  rw [readBack_leaf h hb ht hd hl ha.1 ha.2.1 ha.2.2]
  obtain ⟨a', ha', hf⟩ := hh
  have hvl := vals_one ha' hf hty
  cases hnm : s.name with
  | none => rw [hnm] at hn; cases hn
  | some m => simp [leafVal, hvl, expT, hnm]

example : readBack E₀ 3 "r" "meta" = some (.one "m") := by decide +kernel

/-- **C123 fails**: a child whose name is not the name in the specification is written, under its own name, and not
found again: the attribute is read back as nothing. -/
theorem C123_named_child_fails : ∃ (E : Env) (o : Oid), (E.heap o).fields.get? "meta" = some (.one "m2") ∧
    (buildObj E 3 o []).toOption.map (fun b => ((Dict.get? b.groups "general").map (fun g =>
      Dict.has g.groups "other"))) = some (some true) ∧
    readBack E 3 o "meta" = some .none :=
  ⟨env (heap (full.set "meta" (.one "m2"))) (types [device, spare2]), "r", by decide +kernel, by decide +kernel,
    by decide +kernel⟩

/-- **C124 (partial).** For a specification without a name, exactly the containers that it selects are read back.
Missing: `SaneEnv` demands that no container selected by another specification in the same group has the data type of
this one; see `C124_members_fails`. -/
theorem C124_members_partial {E : Env} (h : SaneEnv E) {n : Nat} {o : Oid} {b : Bld} {td : TypeDef}
    (hb : buildObj E n o [] = .ok b) (ht : E.types (E.heap o).dt = some td) (hd : td.isData = false)
    {k : Kind} {s : TSpec} (hl : Leaf.typed k s ∈ sLeaves td.body) (hn : s.name = none) {a : String}
    (ha : Feeds td s.uid a) : ∃ v, readBack E n o a = some v ∧ ∀ x, x ∈ members v ↔ Selects E td o s x := by
  refine ⟨_, readBack_leaf h hb ht hd hl ha.1 ha.2.1 ha.2.2, fun x => ?_⟩
  rw [← mem_vals]
  have hmem : ∀ (m : Bool) (L : List Oid), members (flatten m L) = L := by
    intro m L
    unfold flatten
    split
    · cases m <;> rfl
    · rfl
  simp only [leafVal]
  by_cases hv : (vals E td o s).isEmpty = true
  · have : vals E td o s = [] := by simpa using hv
    simp [this, members]
  · simp only [hv, Bool.false_eq_true, if_false, expT, hn, Option.map_some, Option.getD_some, hmem, readOrder,
      List.mem_append, List.mem_filter]
    constructor
    · rintro (h | h)
      · exact h.1
      · exact h.1
    · intro hx
      cases hw : own E o k x with
      | true => exact Or.inl ⟨hx, rfl⟩
      | false => exact Or.inr ⟨hx, rfl⟩

private def typed2 : String → Option TypeDef
  | "Root" => some
    { body := .mk 0 "" true [] [.typed { uid := 5, name := none, dt := "Col", qty := .zeroOrMany },
        .typed { uid := 7, name := none, dt := "Col2", qty := .zeroOrMany }] .nil []
      spec2attr := [(5, "cols"), (7, "col2s")]
      spec2carg := [(5, "cols"), (7, "col2s")]
      attrs := ["cols", "col2s"]
      args := [("name", true), ("cols", false), ("col2s", false)] }
  | t => types [] t

/-- **C124 fails**: `c2` of type `Col2` is held by the attribute for `Col2`; read back, it is also held by the attribute
for the base type `Col`. -/
theorem C124_members_fails : ∃ (E : Env) (o : Oid), (E.heap o).fields.get? "cols" = some (.many ["c1"]) ∧
    (E.heap o).fields.get? "col2s" = some (.many ["c2"]) ∧ readBack E 3 o "col2s" = some (.many ["c2"]) ∧
    readBack E 3 o "cols" = some (.many ["c1", "c2"]) :=
  ⟨env (heap [("cols", .many ["c1"]), ("col2s", .many ["c2"])]) typed2, "r", by decide +kernel, by decide +kernel,
    by decide +kernel, by decide +kernel⟩

end Verif.Mapper
