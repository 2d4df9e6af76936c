import Verif.Lemmas.Subspec

/-! # Properties of sub-specs by name and type, and of the sub-spec of a builder -/

namespace Verif.Subspec
open Verif List

/-! ## C210: `get_data_type` and `get_target_type` -/

/-- For every sequence of added specs, `get_data_type` gives what is documented: None if there is no group or dataset of the type, the
unnamed spec if there is one, the only spec if there is one, otherwise the list of all of them in order. -/
theorem C210_data_type (xs : List Sub) (s : GSpec) (h : addAll {} xs = .ok s) (dt : String) :
    (getDataType s dt = none ↔ ∀ x ∈ xs, x.kind ≠ .link → x.type ≠ some dt) ∧
    (∀ u ∈ xs, u.kind ≠ .link → u.type = some dt → u.name = none → getDataType s dt = some (.one u)) ∧
    (∀ l x r, xs = l ++ x :: r → x.kind ≠ .link → x.type = some dt → (∀ y ∈ l ++ r, y.kind ≠ .link → y.type ≠ some dt) →
      getDataType s dt = some (.one x)) ∧
    ((∀ x ∈ xs, x.kind ≠ .link → x.type = some dt → x.name ≠ none) →
      2 ≤ (xs.filter fun x => decide (x.kind ≠ .link ∧ x.type = some dt)).length →
      getDataType s dt = some (.many (xs.filter fun x => decide (x.kind ≠ .link ∧ x.type = some dt)))) := by
  have i := addAll_inv h
  rw [i.data]
  refine ⟨?_, ?_, ?_, ?_⟩
  · rw [doc_none, datas, filter_eq_nil_iff]
    simp only [decide_eq_true_eq, not_and]
  · intro u hu hk ht hn
    apply doc_unnamed
    exact find_unique (i.uniqueD dt) (by simp [datas, hu, hk, ht]) hn
  · rintro l x r rfl hk ht hy
    rw [show datas (l ++ x :: r) dt = [x] from ?_, doc_single]
    unfold datas
    rw [filter_append, filter_cons, if_pos (by simp [hk, ht]), filter_eq_nil_iff.2, filter_eq_nil_iff.2]
    · rfl
    · intro y hy'; simp only [decide_eq_true_eq, not_and]; exact hy y (by simp [hy'])
    · intro y hy'; simp only [decide_eq_true_eq, not_and]; exact hy y (by simp [hy'])
  · intro hn hl
    refine doc_many ?_ hl
    intro x hx
    simp only [datas, mem_filter, decide_eq_true_eq] at hx
    exact hn x hx.1 hx.2.1 hx.2.2

/-- The same for `get_target_type` and links. -/
theorem C210_target_type (xs : List Sub) (s : GSpec) (h : addAll {} xs = .ok s) (dt : String) :
    (getTargetType s dt = none ↔ ∀ x ∈ xs, x.kind = .link → x.type ≠ some dt) ∧
    (∀ u ∈ xs, u.kind = .link → u.type = some dt → u.name = none → getTargetType s dt = some (.one u)) ∧
    (∀ l x r, xs = l ++ x :: r → x.kind = .link → x.type = some dt → (∀ y ∈ l ++ r, y.kind = .link → y.type ≠ some dt) →
      getTargetType s dt = some (.one x)) ∧
    ((∀ x ∈ xs, x.kind = .link → x.type = some dt → x.name ≠ none) →
      2 ≤ (xs.filter fun x => decide (x.kind = .link ∧ x.type = some dt)).length →
      getTargetType s dt = some (.many (xs.filter fun x => decide (x.kind = .link ∧ x.type = some dt)))) := by
  have i := addAll_inv h
  rw [i.target]
  refine ⟨?_, ?_, ?_, ?_⟩
  · rw [doc_none, lnks, filter_eq_nil_iff]
    simp only [decide_eq_true_eq, not_and]
  · intro u hu hk ht hn
    apply doc_unnamed
    exact find_unique (i.uniqueL dt) (by simp [lnks, hu, hk, ht]) hn
  · rintro l x r rfl hk ht hy
    rw [show lnks (l ++ x :: r) dt = [x] from ?_, doc_single]
    unfold lnks
    rw [filter_append, filter_cons, if_pos (by simp [hk, ht]), filter_eq_nil_iff.2, filter_eq_nil_iff.2]
    · rfl
    · intro y hy'; simp only [decide_eq_true_eq, not_and]; exact hy y (by simp [hy'])
    · intro y hy'; simp only [decide_eq_true_eq, not_and]; exact hy y (by simp [hy'])
  · intro hn hl
    refine doc_many ?_ hl
    intro x hx
    simp only [lnks, mem_filter, decide_eq_true_eq] at hx
    exact hn x hx.1 hx.2.1 hx.2.2

/-- Adding fails exactly if a spec has neither name nor type (or is a link without target type), or two unnamed specs have the same
type, both links or both not. -/
theorem C210_accepted (xs : List Sub) : (∃ s, addAll {} xs = .ok s) ↔
    (∀ x ∈ xs, x.type = none → x.kind ≠ .link ∧ x.name ≠ none) ∧
    xs.Pairwise fun x y => ¬ (x.name = none ∧ y.name = none ∧ x.type = y.type ∧ (x.kind = .link ↔ y.kind = .link)) := by
  rw [← allFit_iff]
  rcases addAll_spec xs [] {} inv_empty with ⟨s', h1, _, h3⟩ | ⟨⟨e, h1⟩, h2⟩
  · exact ⟨fun _ => h3, fun _ => ⟨s', h1⟩⟩
  · refine ⟨fun ⟨s, h⟩ => ?_, fun h => absurd h h2⟩
    rw [h] at h1; cases h1

/-- specs of a group: an unnamed group and a named one of a type, two named datasets of a type, a link to the first -/
def exSubs : List Sub :=
  [⟨.group, some "main", some "T", 0⟩, ⟨.group, none, some "T", 1⟩, ⟨.dataset, some "x", some "D", 2⟩, ⟨.dataset, some "y", some "D", 3⟩,
   ⟨.link, some "lk", some "T", 4⟩, ⟨.dataset, some "z", none, 5⟩]

example : ∃ s, addAll {} exSubs = .ok s ∧ getDataType s "T" = some (.one ⟨.group, none, some "T", 1⟩) ∧
    getDataType s "D" = some (.many [⟨.dataset, some "x", some "D", 2⟩, ⟨.dataset, some "y", some "D", 3⟩]) ∧
    getTargetType s "T" = some (.one ⟨.link, some "lk", some "T", 4⟩) ∧ getDataType s "U" = none :=
  ⟨_, rfl, by decide +kernel, by decide +kernel, by decide +kernel, by decide +kernel⟩

example : addAll {} [⟨.group, none, some "T", 0⟩, ⟨.dataset, none, some "T", 1⟩] = .error .valueError := by decide +kernel

/-- The order in which the specs are added does not matter: neither for whether they can be added, nor for a single spec that
`get_data_type` gives, and the list is the same up to its order. -/
theorem C210_order (xs ys : List Sub) (hp : xs.Perm ys) (s : GSpec) (h : addAll {} xs = .ok s) :
    ∃ s', addAll {} ys = .ok s' ∧ ∀ dt,
      (∀ x, getDataType s dt = some (.one x) → getDataType s' dt = some (.one x)) ∧
      (∀ l, getDataType s dt = some (.many l) → ∃ l', getDataType s' dt = some (.many l') ∧ l.Perm l') ∧
      (getDataType s dt = none → getDataType s' dt = none) := by
  have hacc := (C210_accepted xs).1 ⟨s, h⟩
  obtain ⟨s', h'⟩ := (C210_accepted ys).2 ⟨fun x hx => hacc.1 x (hp.mem_iff.2 hx), (hp.pairwise_iff fun {x y} hxy hc =>
    hxy ⟨hc.2.1, hc.1, hc.2.2.1.symm, hc.2.2.2.symm⟩).1 hacc.2⟩
  have i := addAll_inv h
  have i' := addAll_inv h'
  refine ⟨s', h', fun dt => ?_⟩
  rw [i.data, i'.data]
  have hpd : (datas xs dt).Perm (datas ys dt) := hp.filter _
  generalize datas xs dt = a at *
  have hu' := i'.uniqueD dt
  generalize datas ys dt = b at *
  cases hf : a.find? (fun x => decide (x.name = none)) with
  | some u =>
    have hun : u.name = none := by simpa using find?_some hf
    have hub : u ∈ b := hpd.mem_iff.1 (mem_of_find?_eq_some hf)
    have := doc_unnamed (find_unique hu' hub hun)
    rw [doc_unnamed hf, this]
    exact ⟨fun x hx => hx, fun l hl => by simp at hl, by simp⟩
  | none =>
    have hn : ∀ y ∈ a, y.name ≠ none := fun y hy => by simpa using find?_eq_none.1 hf y hy
    have hnb : ∀ y ∈ b, y.name ≠ none := fun y hy => hn y (hpd.mem_iff.2 hy)
    match a, hpd, hn with
    | [], hpd, _ => rw [hpd.symm.eq_nil]; exact ⟨fun x hx => hx, fun l hl => by (cases hl), fun h => h⟩
    | [x], hpd, _ => rw [perm_singleton.1 hpd.symm]; exact ⟨fun x hx => hx, fun l hl => by simp [doc_single] at hl, fun h => h⟩
    | x :: y :: a, hpd, hn =>
      rw [doc_many hn (by simp), doc_many hnb (by rw [← hpd.length_eq]; simp)]
      refine ⟨fun x hx => by simp at hx, fun l hl => ⟨b, rfl, ?_⟩, by simp⟩
      cases hl; exact hpd

example : exSubs.Perm exSubs.reverse ∧ exSubs ≠ exSubs.reverse := ⟨(reverse_perm _).symm, by decide +kernel⟩

/-! ## C211: every sub-spec can be retrieved -/

/-- If no two specs of the same kind have the same name, every spec is given by the getter of its kind under its name, or, if it has no
name, by its type. -/
theorem C211_retrievable_partial (xs : List Sub) (s : GSpec) (h : addAll {} xs = .ok s) (x : Sub) (hx : x ∈ xs) :
    (∀ n, x.name = some n → (xs.filter fun y => decide (y.kind = x.kind ∧ y.name = some n)).length = 1 →
      (match x.kind with
        | .group => getGroup s n
        | .dataset => getDataset s n
        | .link => getLink s n) = some x) ∧
    (x.name = none → ∃ dt, x.type = some dt ∧ (if x.kind = .link then getTargetType s dt else getDataType s dt) = some (.one x)) := by
  have i := addAll_inv h
  constructor
  · intro n hn hl
    have hlast : (named xs x.kind n).getLast? = some x := by
      obtain ⟨y, hy⟩ := length_eq_one_iff.1 hl
      have hxm : x ∈ named xs x.kind n := by simp [named, hx, hn]
      unfold named at hxm ⊢
      rw [hy] at hxm ⊢
      rw [mem_singleton.1 hxm]; rfl
    cases hk : x.kind with
    | group => simp only [getGroup, i.groups]; rw [hk] at hlast; rw [hlast]
    | dataset => simp only [getDataset, i.datasets]; rw [hk] at hlast; rw [hlast]
    | link => simp only [getLink, i.links]; rw [hk] at hlast; exact hlast
  · intro hn
    cases ht : x.type with
    | none => exact absurd hn (i.typed x hx ht).2
    | some dt =>
      refine ⟨dt, rfl, ?_⟩
      by_cases hk : x.kind = .link
      · rw [if_pos hk]; exact (C210_target_type xs s h dt).2.1 x hx hk ht hn
      · rw [if_neg hk]; exact (C210_data_type xs s h dt).2.1 x hx hk ht hn

example : ∃ s, addAll {} exSubs = .ok s ∧ getGroup s "main" = some ⟨.group, some "main", some "T", 0⟩ ∧
    getDataset s "lk" = some ⟨.link, some "lk", some "T", 4⟩ :=
  ⟨_, rfl, by decide +kernel, by decide +kernel⟩

/-- What the getters give was added, under that name, and is of the kind asked for or a link. -/
theorem C211_given (xs : List Sub) (s : GSpec) (h : addAll {} xs = .ok s) (n : String) (x : Sub) :
    (getGroup s n = some x → x ∈ xs ∧ x.name = some n ∧ x.kind ≠ .dataset) ∧
    (getDataset s n = some x → x ∈ xs ∧ x.name = some n ∧ x.kind ≠ .group) ∧
    (getLink s n = some x → x ∈ xs ∧ x.name = some n ∧ x.kind = .link) := by
  have i := addAll_inv h
  have hl : ∀ k, (named xs k n).getLast? = some x → x ∈ xs ∧ x.name = some n ∧ x.kind = k := by
    intro k hk
    have := mem_of_getLast? hk
    simp only [named, mem_filter, decide_eq_true_eq] at this
    exact ⟨this.1, this.2.2, this.2.1⟩
  refine ⟨fun hg => ?_, fun hg => ?_, fun hg => hl _ (by rw [← i.links]; exact hg)⟩
  · unfold getGroup at hg
    split at hg
    · rename_i y hy
      cases hg
      rw [i.groups] at hy
      obtain ⟨a, b, c⟩ := hl _ hy
      exact ⟨a, b, by simp [c]⟩
    · obtain ⟨a, b, c⟩ := hl .link (by rw [← i.links]; exact hg)
      exact ⟨a, b, by simp [c]⟩
  · unfold getDataset at hg
    split at hg
    · rename_i y hy
      cases hg
      rw [i.datasets] at hy
      obtain ⟨a, b, c⟩ := hl _ hy
      exact ⟨a, b, by simp [c]⟩
    · obtain ⟨a, b, c⟩ := hl .link (by rw [← i.links]; exact hg)
      exact ⟨a, b, by simp [c]⟩

example : ∃ s x, addAll {} exSubs = .ok s ∧ getGroup s "lk" = some x := ⟨_, _, rfl, rfl⟩

/-- **C211 fails** for specs of one kind with the same name: the earlier one can not be got by name. -/
theorem C211_repeated_fails : ∃ xs s, addAll {} xs = .ok s ∧ (⟨.group, some "a", some "T", 0⟩ : Sub) ∈ xs ∧
    getGroup s "a" = some ⟨.group, some "a", some "U", 1⟩ :=
  ⟨[⟨.group, some "a", some "T", 0⟩, ⟨.group, some "a", some "U", 1⟩], _, rfl, by decide +kernel, by decide +kernel⟩

/-! ## C212: the sub-spec of a builder -/

/-- A builder whose name is that of a spec of its kind gets this spec (links count as what they link to); the last, if there are several. -/
theorem C212_by_name_partial (hier : String → String → Except Err (List String)) (l r : List Sub) (x : Sub) (s : GSpec) (b : Bld)
    (h : addAll {} (l ++ x :: r) = .ok s) (hk : x.kind = if b.isDataset then .dataset else .group) (hn : x.name = some b.name)
    (hr : ∀ y ∈ r, y.kind = x.kind → y.name ≠ some b.name) : getSubspec hier s b = .ok (some (.one x)) := by
  have i := addAll_inv h
  have hlast : (named (l ++ x :: r) x.kind b.name).getLast? = some x := by
    unfold named
    have hf : r.filter (fun y => decide (y.kind = x.kind ∧ y.name = some b.name)) = [] := by
      rw [filter_eq_nil_iff]
      intro y hy; simp only [decide_eq_true_eq, not_and]; exact hr y hy
    rw [filter_append, filter_cons, if_pos (by simp [hn]), hf]
    simp
  unfold getSubspec getDataset getGroup
  cases hb : b.isDataset with
  | true =>
    rw [hb] at hk
    simp only [if_true] at hk ⊢
    rw [i.datasets, ← hk, hlast]
  | false =>
    rw [hb] at hk
    simp only [Bool.false_eq_true, if_false] at hk ⊢
    rw [i.groups, ← hk, hlast]

example : ∃ s, addAll {} exSubs = .ok s ∧ getSubspec (fun _ _ => .ok []) s ⟨true, false, "main", none, none⟩ =
    .ok (some (.one ⟨.group, some "main", some "T", 0⟩)) := ⟨_, rfl, by decide +kernel⟩

/-- A builder whose name is not that of a spec of its kind or of a link gets a spec of the nearest of its types that there is one of, and
None exactly if there is none. -/
theorem C212_by_type_partial (hier : String → String → Except Err (List String)) (xs : List Sub) (s : GSpec) (b : Bld)
    (h : addAll {} xs = .ok s) (hn : ∀ x ∈ xs, x.name = some b.name → x.kind ≠ .link ∧ x.kind ≠ if b.isDataset then .dataset else .group)
    (ns dt : String) (ts : List String) (hns : b.ns = some (.str ns)) (hdt : b.type = some (.str dt) ∨ b.type = some (.bytes dt))
    (hh : hier ns dt = .ok ts) :
    (getSubspec hier s b = .ok none ↔ ∀ x ∈ xs, ∀ t ∈ ts, x.type ≠ some t) ∧
    (∀ e, getSubspec hier s b = .ok (some e) → ∃ p t q, ts = p ++ t :: q ∧ (∀ x ∈ xs, ∀ t' ∈ p, x.type ≠ some t') ∧
      (∀ x ∈ e.specs, x ∈ xs ∧ x.type = some t) ∧ e.specs ≠ []) ∧
    ∀ e, getSubspec hier s b ≠ .error e := by
  have i := addAll_inv h
  have hnone : ∀ k, (k = .link ∨ k = if b.isDataset then .dataset else .group) → named xs k b.name = [] := by
    intro k hk
    rw [named, filter_eq_nil_iff]
    intro x hx
    simp only [decide_eq_true_eq, not_and]
    rintro rfl hc
    rcases hk with hk | hk
    · exact (hn x hx hc).1 hk
    · exact (hn x hx hc).2 hk
  have hdt' : builderDt b = some dt := by
    unfold builderDt
    rcases hdt with hdt | hdt <;> rw [hdt] <;> rfl
  have hg : getSubspec hier s b = .ok (findType s ts) := by
    unfold getSubspec getDataset getGroup getLink builderNs
    have h0 : Dict.get? s.links b.name = none := by rw [i.links, hnone _ (.inl rfl)]; rfl
    cases hb : b.isDataset with
    | true =>
      rw [hb] at hnone
      simp only [if_true, i.datasets, hnone .dataset (.inr rfl), getLast?_nil, h0, hdt', hns, hh]
    | false =>
      rw [hb] at hnone
      simp only [Bool.false_eq_true, if_false, i.groups, hnone .group (.inr rfl), getLast?_nil, h0, hdt', hns, hh]
  rw [hg]
  refine ⟨?_, ?_, by simp⟩
  · rw [Except.ok.injEq, findType_none i]
    exact ⟨fun h x hx t ht => h t ht x hx, fun h t ht x hx => h x hx t ht⟩
  · intro e he
    rw [Except.ok.injEq] at he
    obtain ⟨p, t, q, h1, h2, h3, h4⟩ := findType_some i ts e he
    exact ⟨p, t, q, h1, fun x hx t' ht' => h2 t' ht' x hx, h3, h4⟩

/-- hierarchies of the examples: S extends T -/
def exHier : String → String → Except Err (List String) := fun ns dt =>
  if ns = "core" then .ok (if dt = "S" then ["S", "T", "Base"] else [dt, "Base"]) else .error .keyError

example : ∃ s, addAll {} exSubs = .ok s ∧ getSubspec exHier s ⟨false, false, "other", some (.bytes "S"), some (.str "core")⟩ =
    .ok (some (.one ⟨.group, none, some "T", 1⟩)) := ⟨_, rfl, by decide +kernel⟩

/-- **C212 fails**: a builder gets a spec that is not its own: the list of the named specs of its type; the spec of its type that has
another name; for a link, the spec of a group where there is one for links to the type. -/
theorem C212_other_fails : ∃ s₁ s₂ s₃,
    addAll {} [⟨.group, some "a", some "T", 0⟩, ⟨.group, some "b", some "T", 1⟩] = .ok s₁ ∧
    getSubspec exHier s₁ ⟨false, false, "c", some (.str "T"), some (.str "core")⟩ =
      .ok (some (.many [⟨.group, some "a", some "T", 0⟩, ⟨.group, some "b", some "T", 1⟩])) ∧
    addAll {} [⟨.group, some "a", some "T", 0⟩] = .ok s₂ ∧
    getSubspec exHier s₂ ⟨false, false, "c", some (.str "T"), some (.str "core")⟩ = .ok (some (.one ⟨.group, some "a", some "T", 0⟩)) ∧
    addAll {} [⟨.group, none, some "T", 0⟩, ⟨.link, none, some "T", 1⟩] = .ok s₃ ∧
    getSubspec exHier s₃ ⟨true, false, "c", some (.str "T"), some (.str "core")⟩ = .ok (some (.one ⟨.group, none, some "T", 0⟩)) :=
  ⟨_, _, _, rfl, by decide +kernel, rfl, by decide +kernel, rfl, by decide +kernel⟩

/-- **C212 fails** if the attribute with the namespace was read as bytes, though the type may be bytes: a TypeError for every spec and
builder whose name is not that of a spec; and also if it is missing. -/
theorem C212_bytes_fails (hier : String → String → Except Err (List String)) (s : GSpec) (b : Bld) (dt : Text) (ht : b.type = some dt)
    (hn : getGroup s b.name = none ∧ getDataset s b.name = none) (hb : b.ns = none ∨ ∃ ns, b.ns = some (.bytes ns)) :
    getSubspec hier s b = .error .typeError := by
  unfold getSubspec
  rw [hn.1, hn.2, ite_self]
  have : ∃ d, builderDt b = some d := by unfold builderDt; rw [ht]; exact ⟨_, rfl⟩
  obtain ⟨d, hd⟩ := this
  rw [hd]
  rcases hb with hb | ⟨ns, hb⟩ <;> simp only [builderNs, hb]

example : getGroup {} "x" = none ∧ getDataset {} "x" = none := by decide +kernel

end Verif.Subspec
