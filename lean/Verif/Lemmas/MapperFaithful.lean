import Verif.Lemmas.MapperRound

/-! Containers that are constructed again unchanged, and a decision procedure for the conditions. -/

namespace Verif.Mapper

open Verif

/-- The value `v` of an attribute is one that the specification of an attribute can store: nothing where the
specification provides nothing, data that the conversion leaves alone and that agrees with a fixed value, or a
container where the specification is a reference. -/
def CanonA (E : Env) (s : ASpec) : FVal → Prop
  | .none => s.value = none ∧ s.default = none
  | .data d => s.isRef = false ∧ (s.value = none ∨ s.value = some d) ∧ E.conv s.uid d = .ok d
  | .one _ => s.isRef = true ∧ s.value = none
  | .many _ => False

/-- The value `v` of an attribute is one that the specification can store.  For a specification with data type: the
containers have the type, a list is neither empty nor too short to be recognised as a list, and the containers that
belong to `o` come before those that belong elsewhere. -/
def Canon (E : Env) (td : TypeDef) (o : Oid) : Leaf → FVal → Prop
  | .attr s, v => CanonA E s v
  | .dattr uid s, v => CanonA E s v ∧ (v = .none ∨ ∃ a d, td.spec2attr.get? uid = some a ∧
      (E.heap o).fields.get? a = some (.data d) ∧ E.conv uid d = .ok d)
  | .dset _, .none => True
  | .dset uid, .data d => E.conv uid d = .ok d
  | .dset _, _ => False
  | .typed _ _, .none => True
  | .typed _ s, .one x => s.dt ∈ E.hier (E.heap x).dt ∧ (s.name.isSome ∨ s.qty.isMany = false)
  | .typed k s, .many l => l ≠ [] ∧ (∀ x ∈ l, s.dt ∈ E.hier (E.heap x).dt) ∧ s.name = none ∧
      (s.qty.isMany = true ∨ 2 ≤ l.length) ∧ (k = .link ∨
        l.filter (fun x => decide ((E.heap x).parent = some o)) ++
          l.filter (fun x => decide ((E.heap x).parent ≠ some o)) = l)
  | .typed _ _, .data _ => False

/-- What is assumed of a container so that it is constructed again unchanged. -/
structure Faithful (E : Env) (td : TypeDef) (o : Oid) : Prop where
  /-- its name is the name the type prescribes, if any -/
  name : td.fixedName = none ∨ td.fixedName = some (E.heap o).name
  type : TypeOK E td o
  uids : ((leaves td).map Leaf.uid).Nodup ∧ td.body.uid ∉ (leaves td).map Leaf.uid
  /-- its attributes are those of its class -/
  fields : Dict.keys (E.heap o).fields = td.attrs ∧ td.attrs.Nodup
  /-- no attribute is fed by two specifications -/
  inj : ∀ l ∈ leaves td, ∀ l' ∈ leaves td, ∀ c, td.spec2attr.get? l.uid = some c →
    td.spec2attr.get? l'.uid = some c → l.uid = l'.uid
  /-- constructor arguments are called like attributes -/
  same : ∀ l ∈ leaves td, td.spec2carg.get? l.uid = td.spec2attr.get? l.uid
  /-- every attribute is an argument of the constructor and has a specification -/
  mapped : ∀ a ∈ td.attrs, a ∈ td.args.map Prod.fst ∧ ((td.isData = true ∧ a = "data") ∨
    ∃ l ∈ leaves td, td.spec2attr.get? l.uid = some a)
  /-- the attribute `data` of a `Data` container is reserved for the data -/
  data : td.isData = true → td.spec2carg.get? td.body.uid = none ∧
    (∀ l ∈ leaves td, td.spec2attr.get? l.uid ≠ some "data") ∧
    ∃ d, (E.heap o).fields.get? "data" = some (.data d) ∧ E.conv td.body.uid d = .ok d
  /-- every value can be stored by its specification -/
  canon : ∀ l ∈ leaves td, ∀ a, td.spec2attr.get? l.uid = some a →
    ∃ v, (E.heap o).fields.get? a = some v ∧ Canon E td o l v
  /-- required arguments have a value -/
  req : ∀ a, (a, true) ∈ td.args → a ≠ "name" → (td.isData = true ∧ a = "data") ∨
    ∃ l ∈ leaves td, td.spec2attr.get? l.uid = some a ∧ (E.heap o).fields.get? a ≠ some .none

/-- `Faithful` for every container, and a type hierarchy without repetitions. -/
structure FaithfulEnv (E : Env) : Prop where
  hier : ∀ t, (E.hier t).Nodup
  obj : ∀ o td, E.types (E.heap o).dt = some td → Faithful E td o

section
variable {E : Env} {td : TypeDef} {o : Oid}

theorem attr_canon {s : ASpec} {a : String} {v : FVal} (ha : td.spec2attr.get? s.uid = some a)
    (hv : (E.heap o).fields.get? a = some v) (hc : CanonA E s v) :
    (attrRes E td o s).map toF = if v = .none then none else some v := by
  unfold attrRes attrOut attrVal getAttrValue
  rw [ha]
  cases v with
  | none => simp [hc.1, hc.2, hv]
  | data d =>
    obtain ⟨h1, h2, h3⟩ := hc
    rcases h2 with h2 | h2 <;> simp [h1, h2, h3, hv, toF]
  | one x => simp [hc.1, hc.2, hv, toF]
  | many l => exact hc.elim

theorem vals_one {s : TSpec} {a : String} {x : Oid} (ha : td.spec2attr.get? s.uid = some a)
    (hv : (E.heap o).fields.get? a = some (.one x)) (hd : s.dt ∈ E.hier (E.heap x).dt) : vals E td o s = [x] := by
  simp [vals, getAttrValue, ha, hv, filterDt, hd]

theorem vals_many {s : TSpec} {a : String} {l : List Oid} (ha : td.spec2attr.get? s.uid = some a)
    (hv : (E.heap o).fields.get? a = some (.many l)) (hn : l ≠ []) (hd : ∀ x ∈ l, s.dt ∈ E.hier (E.heap x).dt) :
    vals E td o s = l := by
  have hf : l.filter (fun x => decide (s.dt ∈ E.hier (E.heap x).dt)) = l :=
    List.filter_eq_self.2 (fun x hx => decide_eq_true (hd x hx))
  have hne : l.isEmpty = false := by cases l with
    | nil => exact absurd rfl hn
    | cons => rfl
  simp [vals, getAttrValue, ha, hv, filterDt, hf, hne]

theorem leaf_canon {l : Leaf} {a : String} {v : FVal} (ha : td.spec2attr.get? l.uid = some a)
    (hv : (E.heap o).fields.get? a = some v) (hc : Canon E td o l v) :
    (leafVal E td o l).map Prod.fst = if v = .none then none else some v := by
  cases l with
  | attr s =>
    have := attr_canon (E := E) (o := o) ha hv hc
    simp only [leafVal, Option.map_map]
    exact this
  | dattr uid s =>
    obtain ⟨h1, h2⟩ := hc
    have := attr_canon (E := E) (o := o) ha hv h1
    simp only [leafVal]
    rcases h2 with rfl | ⟨a', d, q1, q2, q3⟩
    · simp only [if_true] at this ⊢
      have hn : attrRes E td o s = none := by simpa using this
      rw [hn]
      cases dsetOut E td o uid <;> simp
    · have hd : dsetOut E td o uid = some d := by simp [dsetOut, getAttrValue, q1, q2, q3, Except.toOption]
      rw [hd]
      simp only [Option.bind_some, Option.map_map]
      exact this
  | dset uid =>
    simp only [Leaf.uid] at ha
    cases v with
    | none => simp [leafVal, dsetOut, getAttrValue, ha, hv]
    | data d =>
      have hcv : E.conv uid d = .ok d := hc
      simp [leafVal, dsetOut, getAttrValue, ha, hv, hcv, Except.toOption]
    | one x => exact (hc : False).elim
    | many l => exact (hc : False).elim
  | typed k s =>
    simp only [Leaf.uid] at ha
    cases v with
    | none =>
      have : vals E td o s = [] := by simp [vals, getAttrValue, ha, hv, filterDt]
      simp [leafVal, this]
    | data d => exact (hc : False).elim
    | one x =>
      obtain ⟨h1, h2⟩ := (hc : s.dt ∈ E.hier (E.heap x).dt ∧ (s.name.isSome ∨ s.qty.isMany = false))
      have hvl := vals_one ha hv h1
      simp only [leafVal, hvl, expT]
      cases hn : s.name with
      | some m => simp
      | none =>
        have hm : s.qty.isMany = false := by rcases h2 with h2 | h2
                                             · simp [hn] at h2
                                             · exact h2
        have : readOrder E td o k s = [x] := by
          unfold readOrder
          rw [hvl]
          by_cases hw : own E o k x = true <;> simp [hw]
        simp [this, flatten, hm]
    | many l =>
      obtain ⟨h1, h2, h3, h4, h5⟩ := (hc : l ≠ [] ∧ (∀ x ∈ l, s.dt ∈ E.hier (E.heap x).dt) ∧ s.name = none ∧
        (s.qty.isMany = true ∨ 2 ≤ l.length) ∧ (k = .link ∨
          l.filter (fun x => decide ((E.heap x).parent = some o)) ++
          l.filter (fun x => decide ((E.heap x).parent ≠ some o)) = l))
      have hvl := vals_many ha hv h1 h2
      have hro : readOrder E td o k s = l := by
        unfold readOrder
        rw [hvl]
        by_cases hk : k = .link
        · subst hk
          have e1 : l.filter (own E o .link) = [] := List.filter_eq_nil_iff.2 (fun x _ => by simp [own])
          have e2 : l.filter (fun x => !own E o .link x) = l := List.filter_eq_self.2 (fun x _ => by simp [own])
          rw [e1, e2, List.nil_append]
        · rcases h5 with h5 | h5
          · exact absurd h5 hk
          · have e1 : own E o k = fun x => decide ((E.heap x).parent = some o) := by funext x; simp [own, hk]
            have e2 : (fun x => !own E o k x) = fun x => decide ((E.heap x).parent ≠ some o) := by
              funext x; simp [own, hk]
            rw [e2, e1]; exact h5
      have hne : l.isEmpty = false := by cases l with
        | nil => exact absurd rfl h1
        | cons => rfl
      have hfl : flatten s.qty.isMany l = .many l := by
        unfold flatten
        split
        · rename_i x
          rcases h4 with h4 | h4
          · simp [h4]
          · simp at h4
        · rfl
      simp only [leafVal, hvl, hne, Bool.false_eq_true, if_false, expT, h3, hro, hfl]
      simp

theorem Faithful.sane (h : Faithful E td o) : Sane E td o := by
  refine ⟨h.type, h.uids, ?_, ?_, ?_⟩
  · intro l hl l' hl' c h1 h2
    rw [h.same l hl] at h1
    rw [h.same l' hl'] at h2
    exact h.inj l hl l' hl' c h1 h2
  · intro hd
    obtain ⟨q1, q2, _⟩ := h.data hd
    exact ⟨q1, fun l hl => by rw [h.same l hl]; exact q2 l hl⟩
  · intro a ha hn
    rcases h.req a ha hn with hd | ⟨l, hl, h1, h2⟩
    · exact Or.inl hd
    · refine Or.inr ⟨l, hl, by rw [h.same l hl]; exact h1, ?_⟩
      obtain ⟨v, hv, hc⟩ := h.canon l hl a h1
      have := leaf_canon h1 hv hc
      have hvn : v ≠ .none := fun e => h2 (by rw [hv, e])
      rw [if_neg hvn] at this
      cases hlv : leafVal E td o l with
      | none => rw [hlv] at this; cases this
      | some w => rfl

theorem FaithfulEnv.sane (h : FaithfulEnv E) : SaneEnv E := ⟨h.hier, fun o td ht => (h.obj o td ht).sane⟩

theorem cargs_eq (h : Faithful E td o) {a : String} (ha : a ∈ td.attrs) :
    some ((Dict.get? (cargsOf E td o) a).getD .none) = (E.heap o).fields.get? a := by
  have hS := h.sane
  have key : ∀ l ∈ leaves td, td.spec2attr.get? l.uid = some a → ∀ d, Dict.get? d a = none →
      some ((Dict.get? (constArgs td ((leaves td).filterMap (entry E td o)) d) a).getD .none) =
        (E.heap o).fields.get? a := by
    intro l hl h1 d hd
    obtain ⟨v, hv, hc⟩ := h.canon l hl a h1
    rw [constArgs_leaf hS.uids.1 hS.inj hl (by rw [h.same l hl]; exact h1) d hd, leaf_canon h1 hv hc, hv]
    by_cases hvn : v = .none <;> simp [hvn]
  cases hd : td.isData with
  | false =>
    have hm := (h.mapped a ha).2
    simp only [hd, Bool.false_eq_true, false_and, false_or] at hm
    obtain ⟨l, hl, h1⟩ := hm
    simp only [cargsOf, hd]
    exact key l hl h1 [] rfl
  | true =>
    obtain ⟨q1, q2, d, hf, hcv⟩ := h.data hd
    have hdo : dataOut E td o = some d := by simp [dataOut, hf, hcv, Except.toOption]
    have hkeep : ∀ D, Dict.get? (constArgs td [(td.body.uid, (FVal.data d, false))] D) a = Dict.get? D a := by
      intro D
      refine constArgs_keep a _ D ?_
      intro q hq
      simp only [List.mem_singleton] at hq
      rw [hq, q1]; simp
    simp only [cargsOf, hd, hdo, constArgs_append]
    rw [hkeep]
    rcases (h.mapped a ha).2 with ⟨_, rfl⟩ | ⟨l, hl, h1⟩
    · rw [hf, constArgs_keep]
      · simp [Dict.get?]
      · intro q hq
        obtain ⟨l, hl, he⟩ := List.mem_filterMap.1 hq
        unfold entry at he
        cases hv : leafVal E td o l with
        | none => rw [hv] at he; cases he
        | some v => rw [hv] at he; cases he; rw [h.same l hl]; exact q2 l hl
    · refine key l hl h1 _ ?_
      have hne : "data" ≠ a := fun e => q2 l hl (by rw [h1, e])
      simp [Dict.get?, hne]

theorem map_get_eq {f : Dict String FVal} {g : String → FVal} (hn : (Dict.keys f).Nodup)
    (h : ∀ a ∈ Dict.keys f, some (g a) = Dict.get? f a) : (Dict.keys f).map (fun a => (a, g a)) = f := by
  unfold Dict.keys
  rw [List.map_map]
  conv => rhs; rw [← List.map_id f]
  refine List.map_congr_left ?_
  rintro ⟨k, v⟩ hm
  have h1 := h k (Dict.mem_keys_of_mem hm)
  rw [Dict.get?_of_mem hn hm] at h1
  simp [Option.some.inj h1]

theorem restored_eq (ht : E.types (E.heap o).dt = some td) (h : Faithful E td o) (par : Option Oid) :
    restored E o par = { E.heap o with parent := par, source := E.source, modified := false } := by
  have hb : bname E o = (E.heap o).name := by
    unfold bname
    rw [ht]
    rcases h.name with h1 | h1 <;> simp [h1]
  have hf : initFields td (cargsOf E td o) = (E.heap o).fields := by
    unfold initFields
    rw [← h.fields.1]
    refine map_get_eq (by rw [h.fields.1]; exact h.fields.2) ?_
    intro a ha
    rw [h.fields.1] at ha
    have hm := (h.mapped a ha).1
    have : (td.args.map Prod.fst).contains a = true := by simpa using hm
    rw [if_pos this]
    exact cargs_eq h ha
  simp [restored, ht, hb, hf]

end

/-! ### Deciding the conditions -/

/-- Check one member of a group; see `Sound`. -/
def itemB (E : Env) (td : TypeDef) (p : Oid) (I : List Item) : Item → Bool
  | .attr _ => true
  | .dset _ _ as => decide (as.map ASpec.name).Nodup && as.all (fun a => a.name != "data_type")
  | .grp g => g.attrs.all (fun a => a.name != "data_type")
  | .typed k s =>
    (decide (k = .link) || (vals E td p s).all (fun x => isData E x == decide (k = .dset))) &&
    (match s.name with
      | none => true
      | some n => decide ((vals E td p s).length ≤ 1) &&
          (vals E td p s).all (fun x => !own E p k x || bname E x == n)) &&
    (decide (k = .link) || s.name.isSome || I.all (fun j => match j with
      | .typed _ t => t.uid == s.uid || (vals E td p t).all (fun x => isData E x != decide (k = .dset) ||
          !(E.hier (E.heap x).dt).contains s.dt)
      | _ => true)) &&
    (decide (k ≠ .link) || (s.name.isSome && !(vals E td p s).isEmpty) || I.all (fun j => match j with
      | .typed k' t => t.uid == s.uid || (vals E td p t).all (fun x => own E p k' x || (E.heap x).dt != s.dt)
      | _ => true)) &&
    (decide (k ≠ .link) || s.name.isSome || (vals E td p s).all (fun x => (E.heap x).dt == s.dt))

def soundB (E : Env) (td : TypeDef) (p : Oid) (I : List Item) : Bool :=
  decide (I.flatMap (Item.names E td p)).Nodup && decide (I.map Item.uid).Nodup && I.all (itemB E td p I)

section
variable {E : Env} {td : TypeDef} {p : Oid}

theorem soundB_sound {I : List Item} (h : soundB E td p I = true) : Sound E td p I := by
  simp only [soundB, Bool.and_eq_true, decide_eq_true_eq, List.all_eq_true] at h
  obtain ⟨⟨h1, h2⟩, h3⟩ := h
  refine ⟨h1, h2, ?_, ?_, ?_, ?_, ?_, ?_, ?_⟩
  · intro u n as hm
    have := h3 _ hm
    simp only [itemB, Bool.and_eq_true, decide_eq_true_eq, List.all_eq_true, bne_iff_ne] at this
    exact this
  · intro g hm
    have := h3 _ hm
    simp only [itemB, List.all_eq_true, bne_iff_ne] at this
    exact this
  · intro k s hm hk x hx
    have := h3 _ hm
    simp only [itemB, Bool.and_eq_true, Bool.or_eq_true, decide_eq_true_eq, hk, false_or, List.all_eq_true,
      beq_iff_eq] at this
    exact this.1.1.1.1 x hx
  · intro k s n hm hn
    have := h3 _ hm
    simp only [itemB, hn, Bool.and_eq_true, decide_eq_true_eq, List.all_eq_true, Bool.or_eq_true,
      Bool.not_eq_true', beq_iff_eq] at this
    obtain ⟨⟨⟨⟨_, q1, q2⟩, _⟩, _⟩, _⟩ := this
    refine ⟨q1, fun x hx ho => ?_⟩
    rcases q2 x hx with h | h
    · rw [ho] at h; cases h
    · exact h
  · intro k s hm hk hn k' t ht hu x hx hd
    have := h3 _ hm
    simp only [itemB, hn, hk, Bool.and_eq_true, Bool.or_eq_true, decide_eq_true_eq, false_or, List.all_eq_true,
      Option.isSome_none, Bool.false_eq_true] at this
    have q := this.1.1.2 _ ht
    simp only [Bool.or_eq_true, beq_iff_eq, hu, false_or, List.all_eq_true, bne_iff_ne, ne_eq] at q
    have q2 := q x hx
    simp only [hd, not_true_eq_false, false_or, Bool.not_eq_true', List.contains_eq_mem, decide_eq_false_iff_not]
      at q2
    exact q2
  · intro s hm hor k' t ht hu x hx ho
    have := h3 _ hm
    simp only [itemB, Bool.and_eq_true] at this
    have q := this.1.2
    have hno : (s.name.isSome && !(vals E td p s).isEmpty) = false := by
      rcases hor with h | h <;> simp [h]
    rw [hno] at q
    simp only [ne_eq, not_true_eq_false, decide_false, Bool.or_self, Bool.false_or, List.all_eq_true] at q
    have q2 := q _ ht
    simp only [Bool.or_eq_true, beq_iff_eq, hu, false_or, List.all_eq_true, bne_iff_ne, ne_eq] at q2
    have q3 := q2 x hx
    rw [ho] at q3
    simpa using q3
  · intro s hm hn x hx
    have := h3 _ hm
    simp only [itemB, Bool.and_eq_true] at this
    have q := this.2
    simp only [hn, ne_eq, not_true_eq_false, decide_false, Option.isSome_none, Bool.or_self, Bool.false_or,
      List.all_eq_true, beq_iff_eq] at q
    exact q x hx

mutual
def soundGsB (E : Env) (td : TypeDef) (p : Oid) : GList → Bool
  | .nil => true
  | .typed _ l => soundGsB E td p l
  | .untyped g l => soundGB E td p g && soundGsB E td p l
def soundGB (E : Env) (td : TypeDef) (p : Oid) : GSpec → Bool
  | .mk uid name req attrs dsets groups links =>
    soundB E td p (innerItems (.mk uid name req attrs dsets groups links)) && soundGsB E td p groups
end

mutual
theorem soundGsB_sound : ∀ l : GList, soundGsB E td p l = true → SoundGs E td p l
  | .nil, _ => by simp [SoundGs]
  | .typed _ l, h => by
    simp only [soundGsB] at h
    simpa [SoundGs] using soundGsB_sound l h
  | .untyped g l, h => by
    simp only [soundGsB, Bool.and_eq_true] at h
    simp only [SoundGs]
    exact ⟨soundGB_sound g h.1, soundGsB_sound l h.2⟩
theorem soundGB_sound : ∀ g : GSpec, soundGB E td p g = true → SoundG E td p g
  | .mk _ _ _ attrs dsets groups links, h => by
    simp only [soundGB, Bool.and_eq_true] at h
    simp only [SoundG]
    exact ⟨soundB_sound h.1, soundGsB_sound groups h.2⟩
end

def okIs (x : Except BErr Dat) (d : Dat) : Bool :=
  match x with
  | .ok e => e == d
  | .error _ => false

theorem okIs_iff {x : Except BErr Dat} {d : Dat} (h : okIs x d = true) : x = .ok d := by
  cases x with
  | error e => cases h
  | ok e => simp only [okIs, beq_iff_eq] at h; rw [h]

def canonAB (E : Env) (s : ASpec) : FVal → Bool
  | .none => decide (s.value = none) && decide (s.default = none)
  | .data d => !s.isRef && (decide (s.value = none) || decide (s.value = some d)) && okIs (E.conv s.uid d) d
  | .one _ => s.isRef && decide (s.value = none)
  | .many _ => false

theorem canonAB_sound {s : ASpec} {v : FVal} (h : canonAB E s v = true) : CanonA E s v := by
  cases v <;> simp only [canonAB, Bool.and_eq_true, Bool.or_eq_true, decide_eq_true_eq, Bool.not_eq_true'] at h
  · exact h
  · exact ⟨h.1.1, h.1.2, okIs_iff h.2⟩
  · exact h
  · cases h

def canonB (E : Env) (td : TypeDef) (o : Oid) : Leaf → FVal → Bool
  | .attr s, v => canonAB E s v
  | .dattr uid s, v => canonAB E s v && (decide (v = .none) || (match td.spec2attr.get? uid with
      | none => false
      | some a => match (E.heap o).fields.get? a with
        | some (.data d) => okIs (E.conv uid d) d
        | _ => false))
  | .dset _, .none => true
  | .dset uid, .data d => okIs (E.conv uid d) d
  | .dset _, _ => false
  | .typed _ _, .none => true
  | .typed _ s, .one x => (E.hier (E.heap x).dt).contains s.dt && (s.name.isSome || !s.qty.isMany)
  | .typed k s, .many l => !l.isEmpty && l.all (fun x => (E.hier (E.heap x).dt).contains s.dt) &&
      s.name.isNone && (s.qty.isMany || decide (2 ≤ l.length)) && (decide (k = .link) || decide (
        l.filter (fun x => decide ((E.heap x).parent = some o)) ++
          l.filter (fun x => decide ((E.heap x).parent ≠ some o)) = l))
  | .typed _ _, .data _ => false

theorem canonB_sound {l : Leaf} {v : FVal} (h : canonB E td p l v = true) : Canon E td p l v := by
  cases l with
  | attr s => exact canonAB_sound h
  | dattr uid s =>
    simp only [canonB, Bool.and_eq_true, Bool.or_eq_true, decide_eq_true_eq] at h
    refine ⟨canonAB_sound h.1, h.2.imp_right (fun h2 => ?_)⟩
    split at h2
    · cases h2
    · rename_i a ha
      split at h2
      · rename_i d hd
        exact ⟨a, d, ha, hd, okIs_iff h2⟩
      · cases h2
  | dset uid =>
    cases v with
    | none => trivial
    | data d => exact okIs_iff h
    | one x => cases h
    | many l => cases h
  | typed k s =>
    cases v with
    | none => trivial
    | data d => cases h
    | one x =>
      simp only [canonB, Bool.and_eq_true, Bool.or_eq_true, List.contains_eq_mem, decide_eq_true_eq,
        Bool.not_eq_true'] at h
      exact h
    | many l =>
      simp only [canonB, Bool.and_eq_true, Bool.or_eq_true, List.contains_eq_mem, decide_eq_true_eq,
        Bool.not_eq_true', List.all_eq_true, List.isEmpty_eq_false_iff, Option.isNone_iff_eq_none] at h
      obtain ⟨⟨⟨⟨h1, h2⟩, h3⟩, h4⟩, h5⟩ := h
      exact ⟨h1, h2, h3, h4, h5⟩

/-- Everything `Faithful` asks for, except that the children are new or modified. -/
def faithfulB (E : Env) (td : TypeDef) (o : Oid) : Bool :=
  (decide (td.fixedName = none) || decide (td.fixedName = some (E.heap o).name)) &&
  (decide (td.body.attrs.map ASpec.name).Nodup && td.body.attrs.all (fun a => !reserved.contains a.name)) &&
  (td.isData || (soundB E td o (rootItems td.body) && soundGsB E td o td.body.groups)) &&
  (decide ((leaves td).map Leaf.uid).Nodup && !((leaves td).map Leaf.uid).contains td.body.uid) &&
  (decide (Dict.keys (E.heap o).fields = td.attrs) && decide td.attrs.Nodup) &&
  decide ((leaves td).filterMap (fun l => td.spec2attr.get? l.uid)).Nodup &&
  (leaves td).all (fun l => decide (td.spec2carg.get? l.uid = td.spec2attr.get? l.uid)) &&
  td.attrs.all (fun a => (td.args.map Prod.fst).contains a && ((td.isData && a == "data") ||
    (leaves td).any (fun l => decide (td.spec2attr.get? l.uid = some a)))) &&
  (!td.isData || (decide (td.spec2carg.get? td.body.uid = none) &&
    (leaves td).all (fun l => decide (td.spec2attr.get? l.uid ≠ some "data")) &&
    (match (E.heap o).fields.get? "data" with
      | some (.data d) => okIs (E.conv td.body.uid d) d
      | _ => false))) &&
  (leaves td).all (fun l => match td.spec2attr.get? l.uid with
    | none => true
    | some a => match (E.heap o).fields.get? a with
      | none => false
      | some v => canonB E td o l v) &&
  td.args.all (fun q => !q.2 || q.1 == "name" || (td.isData && q.1 == "data") ||
    (leaves td).any (fun l => decide (td.spec2attr.get? l.uid = some q.1) &&
      decide ((E.heap o).fields.get? q.1 ≠ some .none)))

theorem inj_of_nodup {α β : Type} {f : α → Option β} {l : List α} (h : (l.filterMap f).Nodup) :
    ∀ x ∈ l, ∀ y ∈ l, ∀ c, f x = some c → f y = some c → x = y := by
  induction l with
  | nil => intro x hx; cases hx
  | cons z l ih =>
    intro x hx y hy c h1 h2
    have hn : ∀ w ∈ l, f z = some c → f w = some c → False := by
      intro w hw e1 e2
      rw [List.filterMap_cons, e1] at h
      exact (List.nodup_cons.1 h).1 (List.mem_filterMap.2 ⟨w, hw, e2⟩)
    have hl : (l.filterMap f).Nodup := by
      rw [List.filterMap_cons] at h
      split at h
      · exact h
      · exact (List.nodup_cons.1 h).2
    rcases List.mem_cons.1 hx with ex | hx
    · rcases List.mem_cons.1 hy with ey | hy
      · rw [ex, ey]
      · exact (hn y hy (ex ▸ h1) h2).elim
    · rcases List.mem_cons.1 hy with ey | hy
      · exact (hn x hx (ey ▸ h2) h1).elim
      · exact ih hl x hx y hy c h1 h2

theorem faithfulB_sound {o : Oid} (hF : Fresh E o) (h : faithfulB E td o = true) : Faithful E td o := by
  simp only [faithfulB, Bool.and_eq_true] at h
  obtain ⟨⟨⟨⟨⟨⟨⟨⟨⟨⟨h1, h2⟩, h3⟩, h4⟩, h5⟩, h6⟩, h7⟩, h8⟩, h9⟩, h10⟩, h11⟩ := h
  refine ⟨by simpa using h1, ⟨hF, ?_, ?_⟩, ?_, ?_, ?_, ?_, ?_, ?_, ?_, ?_⟩
  · simpa using h2
  · intro hd
    simp only [hd, Bool.false_or, Bool.and_eq_true] at h3
    exact ⟨soundB_sound h3.1, soundGsB_sound _ h3.2⟩
  · simpa using h4
  · simpa using h5
  · intro l hl l' hl' c e1 e2
    rw [inj_of_nodup (by simpa using h6) l hl l' hl' c e1 e2]
  · intro l hl
    simpa using List.all_eq_true.1 h7 l hl
  · intro a ha
    have := List.all_eq_true.1 h8 a ha
    simpa using this
  · intro hd
    simp only [hd, Bool.not_true, Bool.false_or, Bool.and_eq_true, List.all_eq_true, decide_eq_true_eq] at h9
    obtain ⟨⟨q1, q2⟩, q3⟩ := h9
    refine ⟨q1, q2, ?_⟩
    split at q3
    · rename_i d hd'
      exact ⟨d, hd', okIs_iff q3⟩
    · cases q3
  · intro l hl a ha
    have := List.all_eq_true.1 h10 l hl
    rw [ha] at this
    simp only at this
    split at this
    · cases this
    · rename_i v hv
      exact ⟨v, hv, canonB_sound this⟩
  · intro a ha hn
    have := List.all_eq_true.1 h11 (a, true) ha
    simp only [Bool.or_eq_true, Bool.not_true, Bool.false_eq_true, false_or, beq_iff_eq, hn, Bool.and_eq_true,
      List.any_eq_true, decide_eq_true_eq] at this
    exact this

end

end Verif.Mapper
