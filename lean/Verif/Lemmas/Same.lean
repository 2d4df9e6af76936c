import Verif.Model.Same
import Mathlib.Data.List.Nodup

/-! # When the assertions about containers pass -/

namespace Verif.Same
open Verif List

/-- what kind of value a field holds: a number, string or the like; a list; a container -/
inductive Kind where
  | scalar
  | list (k : Kind)
  | obj

/-- What is known of the classes: the names of the fields and their kinds, the kind of the data.  `floats` says whether
floats and arrays may occur, `strict` that dictionaries are empty and the data of `Data` objects are sequences. -/
structure Sch where
  names : Nat → List String
  field : Nat → String → Kind
  data : Nat → Kind
  floats : Bool
  strict : Bool

/-- `v` is of kind `k`, and the containers in it have the fields of their classes; `None` is of every kind -/
inductive Conf (S : Sch) : Kind → V → Prop
  | none {k} : Conf S k .none
  | int {i} : Conf S .scalar (.int i)
  | flt {m} : S.floats = true → Conf S .scalar (.flt m)
  | str {s} : Conf S .scalar (.str s)
  | bytes {s} : Conf S .scalar (.bytes s)
  | dict {kvs} : (S.strict = true → kvs = []) → Conf S .scalar (.dict kvs)
  | seq {k vs} : (∀ v ∈ vs, Conf S k v) → Conf S (.list k) (.seq vs)
  | arr {f xs} : S.floats = true → Conf S (.list .scalar) (.arr f xs)
  | cont {c nm s i k fs} : fs.map (·.1) = S.names c → (S.names c).Nodup → (∀ p ∈ fs, Conf S (S.field c p.1) p.2) →
      Conf S .obj (.obj Option.none c nm s i k fs)
  | data {d c nm s i fs} : Conf S (S.data c) d → (S.strict = true → isSeq d = true) → fs.map (·.1) = S.names c →
      (S.names c).Nodup → (∀ p ∈ fs, Conf S (S.field c p.1) p.2) → Conf S .obj (.obj (some d) c nm s i 0 fs)

/-- `a` and `b` hold the same, numbers up to the tolerance of `assert_allclose`: sequences element by element, containers of
the same class, name, source and object id (unless these are ignored) and number of children, field by field, and the data
of `Data` objects. -/
inductive Near (o : Opts) : V → V → Prop
  | none : Near o .none .none
  | num {a b x} : a.num = some x → b.num = some x → Near o a b
  | numClose {m b y} : b.num = some y → (m - y).natAbs * 10000000 ≤ y.natAbs → Near o (.flt m) b
  | arr {f g xs ys} : xs.length = ys.length → (∀ (i : Nat) x y p q, xs[i]? = some x → ys[i]? = some y →
      (arrElem f x).num = some p → (arrElem g y).num = some q → (p - q).natAbs * 10000000 ≤ q.natAbs) →
      Near o (.arr f xs) (.arr g ys)
  | str {s} : Near o (.str s) (.str s)
  | bytes {s} : Near o (.bytes s) (.bytes s)
  | strBytes {s} : o.strToByte = true → Near o (.str s) (.bytes s)
  | bytesStr {s} : o.strToByte = true → Near o (.bytes s) (.str s)
  | dict : Near o (.dict []) (.dict [])
  | seq {a b l l'} : isSeq a = true → isSeq b = true → elems a = .ok l → elems b = .ok l' → l.length = l'.length →
      (∀ (i : Nat) x y, l[i]? = some x → l'[i]? = some y → Near o x y) → Near o a b
  | cont {c nm s1 s2 i1 i2 k fs gs} : (o.ignoreAttrs = true ∨ s1 = s2 ∧ i1 = i2) →
      (∀ f v, (f, v) ∈ fs → ∃ w, getField gs f = .ok w) →
      (∀ f v w, (f, v) ∈ fs → getField gs f = .ok w → Near o v w) →
      Near o (.obj Option.none c nm s1 i1 k fs) (.obj Option.none c nm s2 i2 k gs)
  | data {d e c nm s1 s2 i1 i2 k1 k2 fs gs} : (o.ignoreAttrs = true ∨ s1 = s2 ∧ i1 = i2) → Near o d e →
      (∀ f v, (f, v) ∈ fs → ∃ w, getField gs f = .ok w) →
      (∀ f v w, (f, v) ∈ fs → getField gs f = .ok w → Near o v w) →
      Near o (.obj (some d) c nm s1 i1 k1 fs) (.obj (some e) c nm s2 i2 k2 gs)

/-- two containers agree but for the data of `Data` objects; the name may be ignored -/
def Shell (ign : Bool) (o : Opts) (a b : V) : Prop :=
  ∃ d1 d2 c n1 n2 s1 s2 i1 i2 k1 k2 fs gs, a = .obj d1 c n1 s1 i1 k1 fs ∧ b = .obj d2 c n2 s2 i2 k2 gs ∧
    d1.isSome = d2.isSome ∧ (ign = true ∨ n1 = n2) ∧ (o.ignoreAttrs = true ∨ s1 = s2 ∧ i1 = i2) ∧
    (d1.isSome = true ∨ k1 = k2) ∧ ∀ f v, (f, v) ∈ fs → ∃ w, getField gs f = .ok w ∧ Near o v w

theorem Near.mono {o o' : Opts} (h1 : o.ignoreAttrs = true → o'.ignoreAttrs = true)
    (h2 : o.strToByte = true → o'.strToByte = true) {a b : V} (h : Near o a b) : Near o' a b := by
  induction h with
  | none => exact .none
  | num h3 h4 => exact .num h3 h4
  | numClose h3 h4 => exact .numClose h3 h4
  | arr h3 h4 => exact .arr h3 h4
  | str => exact .str
  | bytes => exact .bytes
  | strBytes h => exact .strBytes (h2 h)
  | bytesStr h => exact .bytesStr (h2 h)
  | dict => exact .dict
  | seq a b c d e _ ih => exact .seq a b c d e ih
  | cont a b _ ih => exact .cont (a.imp_left h1) b ih
  | data a _ b _ ihd ih => exact .data (a.imp_left h1) ihd b ih

theorem all_pass {l : List Out} : Out.all l = .pass ↔ ∀ x ∈ l, x = .pass := by
  induction l with
  | nil => simp [Out.all]
  | cons o l ih => cases o <;> simp [Out.all, ih]

theorem andThen_pass {a b : Out} : a.andThen b = .pass ↔ a = .pass ∧ b = .pass := by
  cases a <;> simp [Out.andThen]

theorem check_pass {b : Bool} : check b = .pass ↔ b = true := by
  cases b <;> simp [check]

theorem scalarEq_near {o : Opts} {a b : V} (h : scalarEq a b = .pass) : Near o a b := by
  unfold scalarEq at h
  split at h
  · exact .none
  · rw [check_pass, decide_eq_true_eq] at h; subst h; exact .str
  · rw [check_pass, decide_eq_true_eq] at h; subst h; exact .bytes
  · exact .dict
  · cases h
  · split at h
    · rename_i x y h1 h2
      rw [check_pass, decide_eq_true_eq] at h
      subst h
      exact .num h1 h2
    · cases h

theorem closeTo_near {o : Opts} {m : Int} {b : V} (h : closeTo m b = .pass) : Near o (.flt m) b := by
  unfold closeTo at h
  split at h
  · rename_i y hy
    rw [check_pass] at h
    exact .numClose hy (of_decide_eq_true h)
  · cases h

theorem scalarEq_str_left {s : List Char} {v : V} (h : scalarEq (.str s) v = .pass) : v = .str s := by
  cases v <;> simp [scalarEq, check, V.num] at h
  rw [h]

theorem scalarEq_str_right {s : List Char} {v : V} (h : scalarEq v (.str s) = .pass) : v = .str s := by
  cases v <;> simp [scalarEq, check, V.num] at h
  rw [h]

theorem scalars_near {o : Opts} {a b : V} (h : scalars o a b = .pass) : Near o a b := by
  unfold scalars at h
  split at h
  · exact closeTo_near (o := o) h
  · by_cases ho : o.strToByte = true
    · have hd : ∀ v, decode o v = v ∨ ∃ s, v = .bytes s ∧ decode o v = .str s := by
        intro v; cases v <;> simp [decode, ho]
      have hr : ∀ v s, decode o v = .str s → v = .str s ∨ v = .bytes s := by
        intro v s hv; cases v <;> simp [decode, ho] at hv <;> simp [hv]
      rcases hd a with ha | ⟨s, rfl, ha⟩
      · rcases hd b with hb | ⟨s, rfl, hb⟩
        · rw [ha, hb] at h; exact scalarEq_near h
        · rw [hb] at h
          rcases hr _ _ (scalarEq_str_right h) with rfl | rfl
          · exact .strBytes ho
          · exact .bytes
      · rw [ha] at h
        rcases hr _ _ (scalarEq_str_left h) with rfl | rfl
        · exact .bytesStr ho
        · exact .bytes
    · have hd : ∀ v, decode o v = v := by
        intro v; cases v <;> simp [decode, ho]
      rw [hd, hd] at h
      exact scalarEq_near h

theorem conf_elems {S : Sch} {k : Kind} {a : V} (h : Conf S (.list k) a) (hs : isSeq a = true) :
    ∃ l, elems a = .ok l ∧ lenOf a = .ok l.length ∧ ∀ v ∈ l, Conf S k v := by
  cases h with
  | none => cases hs
  | seq h => exact ⟨_, rfl, rfl, h⟩
  | arr h =>
    refine ⟨_, rfl, by simp [lenOf], fun v hv => ?_⟩
    rw [mem_map] at hv
    obtain ⟨x, _, rfl⟩ := hv
    unfold arrElem
    split
    · exact .flt h
    · exact .int

theorem conf_list_of_seq {S : Sch} {k : Kind} {a : V} (h : Conf S k a) (hs : isSeq a = true) : ∃ k', k = .list k' := by
  cases h <;> first | exact ⟨_, rfl⟩ | cases hs

theorem lenOf_error {S : Sch} {k : Kind} {a : V} (h : Conf S (.list k) a) (hs : isSeq a = false) :
    lenOf a = .error .typeError := by
  cases h <;> first | rfl | cases hs

theorem zip_near {P : V → V → Prop} {l l' : List V} {f : V × V → Out}
    (h : Out.all ((l.zip l').map f) = .pass) (hP : ∀ x ∈ l, ∀ y ∈ l', f (x, y) = .pass → P x y) :
    ∀ (i : Nat) x y, l[i]? = some x → l'[i]? = some y → P x y := by
  intro i x y hx hy
  rw [all_pass] at h
  have hz : (l.zip l')[i]? = some (x, y) := by
    rw [List.getElem?_zip_eq_some]; exact ⟨hx, hy⟩
  exact hP x (List.mem_of_getElem? hx) y (List.mem_of_getElem? hy)
    (h _ (mem_map.2 ⟨_, List.mem_of_getElem? hz, rfl⟩))

theorem arrays_near {o : Opts} {f g : Bool} {xs ys : List Int} (hl : xs.length = ys.length)
    (h : arrays xs ys f g = .pass) : Near o (.arr f xs) (.arr g ys) := by
  refine .arr hl fun i u v p q hu hv hp hq => ?_
  unfold arrays at h
  rw [all_pass] at h
  have hz : (xs.zip ys)[i]? = some (u, v) := by
    rw [List.getElem?_zip_eq_some]; exact ⟨hu, hv⟩
  have := h _ (mem_map.2 ⟨_, List.mem_of_getElem? hz, rfl⟩)
  simp only [hp, hq] at this
  rw [check_pass] at this
  exact of_decide_eq_true this

theorem arrayEq_near {S : Sch} {o : Opts} {k : Kind} {a b : V} {rec : V → V → Out}
    (h : arrayEq rec o a b = .pass) (ha : Conf S k a) (hb : Conf S k b)
    (hr : ∀ k x y, Conf S k x → Conf S k y → rec x y = .pass → Near o x y) : Near o a b := by
  unfold arrayEq at h
  by_cases hab : (!isSeq a && !isSeq b) = true
  · rw [if_pos hab] at h
    exact scalars_near h
  · rw [if_neg hab] at h
    have : ∃ k', k = .list k' := by
      by_cases h1 : isSeq a = true
      · exact conf_list_of_seq ha h1
      · refine conf_list_of_seq hb ?_
        cases h2 : isSeq b
        · simp [h1, h2] at hab
        · rfl
    obtain ⟨k', rfl⟩ := this
    cases h1 : isSeq a with
    | false => rw [lenOf_error ha h1] at h; cases h
    | true =>
    cases h2 : isSeq b with
    | false =>
      rw [lenOf_error hb h2] at h
      cases h3 : lenOf a <;> rw [h3] at h <;> cases h
    | true =>
      obtain ⟨l, e1, n1, c1⟩ := conf_elems ha h1
      obtain ⟨l', e2, n2, c2⟩ := conf_elems hb h2
      rw [n1, n2] at h
      simp only at h
      split at h
      · cases h
      · rename_i hn
        simp only [ne_eq, not_not] at hn
        split at h
        · rename_i f xs g ys
          refine arrays_near ?_ h
          simpa [lenOf, n1, n2, hn] using (show lenOf (.arr f xs) = lenOf (.arr g ys) by rw [n1, n2, hn])
        · rw [e1, e2] at h
          refine .seq h1 h2 e1 e2 hn (zip_near h fun x hx y hy => hr k' x y (c1 x hx) (c2 y hy))

theorem getField_mem {fs : List (String × V)} {f : String} {w : V} (h : getField fs f = .ok w) : (f, w) ∈ fs := by
  unfold getField at h
  split at h
  · rename_i p hp
    cases h
    have h1 := List.find?_some hp
    have h2 := List.mem_of_find?_eq_some hp
    simp only [decide_eq_true_eq] at h1
    subst h1; exact h2
  · cases h

theorem conf_fields {S : Sch} {d c nm s i k fs} (h : Conf S .obj (.obj d c nm s i k fs)) :
    fs.map (·.1) = S.names c ∧ (S.names c).Nodup ∧ (∀ p ∈ fs, Conf S (S.field c p.1) p.2) ∧
    ∀ x, d = some x → Conf S (S.data c) x ∧ (S.strict = true → isSeq x = true) := by
  cases h with
  | cont h1 h2 h3 => exact ⟨h1, h2, h3, fun _ h => by cases h⟩
  | data h1 h2 h3 h4 h5 => exact ⟨h3, h4, h5, fun _ h => by cases h; exact ⟨h1, h2⟩⟩

theorem containers_shell {S : Sch} {o : Opts} {ign : Bool} {a b : V} {rec : V → V → Out}
    (h : containers rec ign o a b = .pass) (ha : Conf S .obj a) (hb : Conf S .obj b)
    (hr : ∀ k x y, Conf S k x → Conf S k y → rec x y = .pass → Near o x y) : Shell ign o a b := by
  unfold containers at h
  split at h
  · rename_i d1 c1 n1 s1 i1 k1 f1 d2 c2 n2 s2 i2 k2 f2
    simp only [andThen_pass, check_pass, decide_eq_true_eq] at h
    obtain ⟨⟨rfl, hd⟩, hn, hi, hk, hf⟩ := h
    rw [all_pass] at hf
    refine ⟨d1, d2, c1, n1, n2, s1, s2, i1, i2, k1, k2, f1, f2, rfl, rfl, hd, hn, hi, hk, fun f v hfv => ?_⟩
    have := hf _ (mem_map.2 ⟨_, hfv, rfl⟩)
    simp only at this
    split at this
    · cases this
    · rename_i w hw
      exact ⟨w, hw, hr _ _ _ ((conf_fields ha).2.2.1 _ hfv) ((conf_fields hb).2.2.1 _ (getField_mem hw)) this⟩
  · cases h

theorem Shell.mono {ign : Bool} {o o' : Opts} (h1 : o.ignoreAttrs = true → o'.ignoreAttrs = true)
    (h2 : o.strToByte = true → o'.strToByte = true) {a b : V} (h : Shell ign o a b) : Shell ign o' a b := by
  obtain ⟨d1, d2, c, n1, n2, s1, s2, i1, i2, k1, k2, fs, gs, ha, hb, hd, hn, hi, hk, hf⟩ := h
  refine ⟨d1, d2, c, n1, n2, s1, s2, i1, i2, k1, k2, fs, gs, ha, hb, hd, hn, hi.imp_left h1, hk, fun f v hv => ?_⟩
  obtain ⟨w, hw, hn⟩ := hf f v hv
  exact ⟨w, hw, hn.mono h1 h2⟩

theorem Shell.cont {o : Opts} {a b : V} (h : Shell false o a b) (ha : isContainer a = true) : Near o a b := by
  obtain ⟨d1, d2, c, n1, n2, s1, s2, i1, i2, k1, k2, fs, gs, rfl, rfl, hd, hn, hi, hk, hf⟩ := h
  cases d1 with
  | some _ => cases ha
  | none =>
    cases d2 with
    | some _ => cases hd
    | none =>
      simp only [Bool.false_eq_true, false_or, Option.isSome_none] at hn hk
      subst hn hk
      refine .cont hi (fun f v hv => ?_) fun f v w hv hw => ?_
      · obtain ⟨w, hw, _⟩ := hf f v hv; exact ⟨w, hw⟩
      · obtain ⟨w', hw', hn⟩ := hf f v hv
        rw [hw] at hw'; cases hw'; exact hn

/-- what a pass of each of the functions says -/
theorem cmp_near {S : Sch} (n : Nat) : ∀ (fn : Fn) (o : Opts) (a b : V), cmp n fn o a b = .pass → match fn with
    | .container ign => Conf S .obj a → Conf S .obj b → Shell ign o a b
    | .data => Conf S .obj a → Conf S .obj b → Near o a b
    | _ => ∀ k, Conf S k a → Conf S k b → Near o a b := by
  induction n with
  | zero => intro fn o a b h; cases h
  | succ n ih =>
    intro fn o a b h
    -- the second of two compared containers is one too
    have hcont : ∀ {k : Kind} {ign : Bool} {o : Opts} {a b : V}, cmp n (.container ign) o a b = .pass → Conf S k b → k = .obj := by
      intro k ign o a b h hb
      cases n with
      | zero => cases h
      | succ n =>
        simp only [cmp] at h
        unfold containers at h
        split at h
        · cases hb <;> rfl
        · cases h
    have hdat : ∀ {k : Kind} {o : Opts} {a b : V}, cmp n .data o a b = .pass → Conf S k b → k = .obj := by
      intro k o a b h hb
      cases n with
      | zero => cases h
      | succ n =>
        simp only [cmp] at h
        split at h
        · cases hb; rfl
        · cases h
    cases fn with
    | container ign =>
      intro ha hb
      simp only [cmp] at h
      exact containers_shell h ha hb fun k x y hx hy hr => ih .field o x y hr k hx hy
    | field =>
      intro k ha hb
      simp only [cmp] at h
      split at h
      · exact ih .array o a b h k ha hb
      · split at h
        · cases h
        · have := hcont h hb; subst this
          exact (ih _ _ _ _ h ha hb).cont rfl
        · have := hdat h hb; subst this
          exact ih _ _ _ _ h ha hb
        · exact closeTo_near h
        · exact scalarEq_near h
    | data =>
      intro ha hb
      simp only [cmp] at h
      split at h
      · rename_i d c nm s i k fs e c' nm' s' i' k' fs'
        split at h
        · split at h
          · cases h
          · rw [andThen_pass] at h
            obtain ⟨h1, h2⟩ := h
            have hsh := Shell.mono (o := ⟨o.ignoreAttrs, false⟩) (o' := o) id (fun h => by cases h) (ih _ _ _ _ h2 ha hb)
            have hc : c' = c := by
              obtain ⟨d1, d2, c, n1, n2, s1, s2, i1, i2, k1, k2, fs, gs, e1, e2, _⟩ := hsh
              cases e1; cases e2; rfl
            subst hc
            have hde := ih _ _ _ _ h1 _ ((conf_fields ha).2.2.2 _ rfl).1 ((conf_fields hb).2.2.2 _ rfl).1
            obtain ⟨d1, d2, c, n1, n2, s1, s2, i1, i2, k1, k2, fs, gs, e1, e2, hd, hn, hi, hk, hf⟩ := hsh
            cases e1; cases e2
            simp only [Bool.false_eq_true, false_or] at hn
            subst hn
            refine .data hi hde (fun f v hv => ?_) fun f v w hv hw => ?_
            · obtain ⟨w, hw, _⟩ := hf f v hv; exact ⟨w, hw⟩
            · obtain ⟨w', hw', hn⟩ := hf f v hv
              rw [hw] at hw'; cases hw'; exact hn
        · cases h
      · cases h
    | array =>
      intro k ha hb
      simp only [cmp] at h
      exact arrayEq_near h ha hb fun k x y hx hy hr => ih .elem o x y hr k hx hy
    | elem =>
      intro k ha hb
      simp only [cmp] at h
      split at h
      · have := hcont h hb; subst this
        exact (ih _ _ _ _ h ha hb).cont rfl
      · have := hdat h hb; subst this
        exact ih _ _ _ _ h ha hb
      · exact ih .array o a b h k ha hb

theorem getField_of_mem {fs : List (String × V)} (hn : (fs.map (·.1)).Nodup) {f : String} {w : V} (h : (f, w) ∈ fs) :
    getField fs f = .ok w := by
  unfold getField
  cases hf : fs.find? (fun p => p.1 = f) with
  | none =>
    rw [List.find?_eq_none] at hf
    exact absurd (hf _ h) (by simp)
  | some p =>
    have h1 := List.find?_some hf
    have h2 := List.mem_of_find?_eq_some hf
    simp only [decide_eq_true_eq] at h1
    have := List.inj_on_of_nodup_map hn h2 h (by simpa using h1)
    rw [this]

theorem fields_eq {fs gs : List (String × V)} (hk : fs.map (·.1) = gs.map (·.1)) (hn : (gs.map (·.1)).Nodup)
    (h : ∀ f v w, (f, v) ∈ fs → getField gs f = .ok w → v = w) : fs = gs := by
  have hl : fs.length = gs.length := by simpa using congrArg List.length hk
  refine List.ext_getElem hl fun i h1 h2 => ?_
  have hki : fs[i].1 = gs[i].1 := by
    have := congrArg (fun l => l[i]?) hk
    simpa [h1, h2] using this
  refine Prod.ext hki (h fs[i].1 _ _ (List.getElem_mem h1) ?_)
  rw [hki]
  exact getField_of_mem hn (List.getElem_mem h2)

theorem near_eq {S : Sch} (hS : S.floats = false) {a b : V} (h : Near {} a b) :
    ∀ k, Conf S k a → Conf S k b → a = b := by
  induction h with
  | none => intros; rfl
  | num h1 h2 =>
    intro k ha hb
    cases ha <;> simp [V.num] at h1
    · cases hb <;> simp [V.num] at h2
      · rw [V.int.injEq]; omega
      · simp_all
    · simp_all
  | numClose => intro k ha; cases ha; simp_all
  | arr => intro k ha; cases ha; simp_all
  | str => intros; rfl
  | bytes => intros; rfl
  | strBytes h => cases h
  | bytesStr h => cases h
  | dict => intros; rfl
  | seq h1 h2 h3 h4 h5 _ ih =>
    intro k ha hb
    cases ha <;> try cases h1
    · rename_i k vs hvs
      cases hb with
      | none => cases h2
      | arr h => simp [hS] at h
      | seq hws =>
        cases h3; cases h4
        refine congrArg V.seq (List.ext_getElem h5 fun i g1 g2 => ?_)
        exact ih i _ _ (List.getElem?_eq_getElem g1) (List.getElem?_eq_getElem g2) k
          (hvs _ (List.getElem_mem g1)) (hws _ (List.getElem_mem g2))
    · simp_all
  | cont h1 h2 _ ih =>
    intro k ha hb
    obtain rfl : k = .obj := by cases ha; rfl
    obtain ⟨a1, a2, a3, _⟩ := conf_fields ha
    obtain ⟨b1, _, b3, _⟩ := conf_fields hb
    simp only [Bool.false_eq_true, false_or] at h1
    obtain ⟨rfl, rfl⟩ := h1
    congr 1
    exact fields_eq (a1.trans b1.symm) (b1 ▸ a2) fun f v w hv hw =>
      ih f v w hv hw _ (a3 _ hv) (b3 _ (getField_mem hw))
  | data h1 _ h2 _ ihd ih =>
    intro k ha hb
    obtain rfl : k = .obj := by cases ha; rfl
    obtain ⟨a1, a2, a3, a4⟩ := conf_fields ha
    obtain ⟨b1, _, b3, b4⟩ := conf_fields hb
    cases ha; cases hb
    simp only [Bool.false_eq_true, false_or] at h1
    obtain ⟨rfl, rfl⟩ := h1
    congr 1
    · rw [ihd _ (a4 _ rfl).1 (b4 _ rfl).1]
    · exact fields_eq (a1.trans b1.symm) (b1 ▸ a2) fun f v w hv hw =>
        ih f v w hv hw _ (a3 _ hv) (b3 _ (getField_mem hw))

/-! ## Comparing a value with itself -/

/-- all the functions that may meet `v` pass on `v` and itself -/
def Refl (n : Nat) (v : V) : Prop :=
  (∀ o, cmp n .field o v v = .pass) ∧ (∀ o, cmp n .elem o v v = .pass) ∧
  (isContainer v = false → isData v = false → ∀ o, cmp n .array o v v = .pass) ∧
  (isContainer v = true ∨ isData v = true → ∀ o ign, cmp n (.container ign) o v v = .pass)

theorem bound {α : Type} {P : Nat → α → Prop} : ∀ (l : List α), (∀ x ∈ l, ∃ N, ∀ n, N ≤ n → P n x) →
    ∃ N, ∀ n, N ≤ n → ∀ x ∈ l, P n x
  | [], _ => ⟨0, by simp⟩
  | x :: l, h => by
    obtain ⟨N, hN⟩ := bound l fun y hy => h y (by simp [hy])
    obtain ⟨M, hM⟩ := h x (by simp)
    refine ⟨max N M, fun n hn y hy => ?_⟩
    rcases mem_cons.1 hy with rfl | hy
    · exact hM n (by omega)
    · exact hN n (by omega) y hy

theorem scalarEq_refl {v : V} (h : v.num.isSome ∨ v = .none ∨ v = .dict [] ∨ (∃ s, v = .str s) ∨ ∃ s, v = .bytes s) :
    scalarEq v v = .pass := by
  rcases h with h | rfl | rfl | ⟨s, rfl⟩ | ⟨s, rfl⟩
  · cases v <;> simp [V.num] at h <;> simp [scalarEq, V.num, check]
  all_goals simp [scalarEq, check]

theorem refl_scalar {v : V} (h : v.num.isSome ∨ v = .none ∨ v = .dict [] ∨ (∃ s, v = .str s) ∨ ∃ s, v = .bytes s) :
    ∀ n, 3 ≤ n → Refl n v := by
  intro n hn
  obtain ⟨m, rfl⟩ : ∃ m, n = m + 3 := ⟨n - 3, by omega⟩
  have key : ∀ j o, cmp (j + 1) .field o v v = .pass ∧ cmp (j + 1) .array o v v = .pass := by
    intro j o
    rcases h with h | rfl | rfl | ⟨s, rfl⟩ | ⟨s, rfl⟩
    · cases v <;> simp [V.num] at h <;>
        simp [cmp, isSeq, arrayEq, scalars, scalarEq, closeTo, V.num, check, close, decode]
    all_goals
      by_cases ho : o.strToByte = true <;>
        simp [cmp, isSeq, arrayEq, scalars, scalarEq, check, decode, ho]
  refine ⟨fun o => (key _ o).1, fun o => ?_, fun _ _ o => (key _ o).2, fun hc => ?_⟩
  · have := (key (m + 1) o).2
    rcases h with h | rfl | rfl | ⟨s, rfl⟩ | ⟨s, rfl⟩
    · cases v <;> simp [V.num] at h <;> simpa only [cmp] using this
    all_goals simpa only [cmp] using this
  · rcases h with h | rfl | rfl | ⟨s, rfl⟩ | ⟨s, rfl⟩
    · cases v <;> simp [V.num] at h <;> simp [isContainer, isData] at hc
    all_goals simp [isContainer, isData] at hc

theorem zip_self_pass {l : List V} {f : V × V → Out} (h : ∀ v ∈ l, f (v, v) = .pass) :
    Out.all ((l.zip l).map f) = .pass := by
  rw [all_pass]
  intro x hx
  obtain ⟨p, hp, rfl⟩ := mem_map.1 hx
  obtain ⟨i, hi, rfl⟩ := List.getElem_of_mem hp
  simp only [List.getElem_zip]
  exact h _ (List.getElem_mem _)

theorem refl_seq {vs : List V} {n : Nat} (h : ∀ m, n ≤ m → ∀ v ∈ vs, Refl m v) : ∀ m, n + 3 ≤ m → Refl m (.seq vs) := by
  intro m hm
  obtain ⟨j, rfl, hj⟩ : ∃ j, m = j + 2 ∧ n + 1 ≤ j := ⟨m - 2, by omega, by omega⟩
  have key : ∀ i o, n ≤ i → cmp (i + 1) .array o (.seq vs) (.seq vs) = .pass := by
    intro i o hi
    simp only [cmp, arrayEq, isSeq, lenOf, elems]
    simpa using zip_self_pass fun v hv => (h i hi v hv).2.1 o
  refine ⟨fun o => ?_, fun o => ?_, fun _ _ o => key _ o (by omega), fun hc => by simp [isContainer, isData] at hc⟩
  · have := key j o (by omega)
    simpa [cmp, isSeq] using this
  · have := key j o (by omega)
    simpa only [cmp] using this

theorem refl_arr {f : Bool} {xs : List Int} : ∀ m, 3 ≤ m → Refl m (.arr f xs) := by
  intro m hm
  obtain ⟨j, rfl⟩ : ∃ j, m = j + 3 := ⟨m - 3, by omega⟩
  have key : ∀ i o, cmp (i + 1) .array o (.arr f xs) (.arr f xs) = .pass := by
    intro i o
    simp only [cmp, arrayEq, isSeq, lenOf]
    simp only [Bool.not_true, Bool.and_self, Bool.false_eq_true, if_false, ne_eq, not_true_eq_false]
    unfold arrays
    rw [all_pass]
    intro x hx
    obtain ⟨p, hp, rfl⟩ := mem_map.1 hx
    obtain ⟨i, hi, rfl⟩ := List.getElem_of_mem hp
    simp only [List.getElem_zip]
    cases f <;> simp [arrElem, V.num, check, close]
  refine ⟨fun o => ?_, fun o => ?_, fun _ _ o => key _ o, fun hc => by simp [isContainer, isData] at hc⟩
  · have := key (j + 1) o
    simpa [cmp, isSeq] using this
  · have := key (j + 1) o
    simpa only [cmp] using this

theorem containers_refl {rec : V → V → Out} {ign : Bool} {o : Opts} {d c nm s i k} {fs : List (String × V)}
    (hn : (fs.map (·.1)).Nodup) (h : ∀ p ∈ fs, rec p.2 p.2 = .pass) :
    containers rec ign o (.obj d c nm s i k fs) (.obj d c nm s i k fs) = .pass := by
  simp only [containers, andThen_pass, check_pass, all_pass]
  refine ⟨by simp, by simp, by simp, by simp, fun x hx => ?_⟩
  obtain ⟨p, hp, rfl⟩ := mem_map.1 hx
  rw [getField_of_mem hn (f := p.1) (w := p.2) hp]
  exact h p hp

theorem conf_refl {S : Sch} (hS : S.strict = true) {k : Kind} {v : V} (h : Conf S k v) : ∃ N, ∀ n, N ≤ n → Refl n v := by
  induction h with
  | none => exact ⟨3, refl_scalar (by simp)⟩
  | int => exact ⟨3, refl_scalar (by simp [V.num])⟩
  | flt => exact ⟨3, refl_scalar (by simp [V.num])⟩
  | str => exact ⟨3, refl_scalar (by simp)⟩
  | bytes => exact ⟨3, refl_scalar (by simp)⟩
  | dict h => rw [h hS]; exact ⟨3, refl_scalar (by simp)⟩
  | seq _ ih =>
    obtain ⟨N, hN⟩ := bound _ ih
    exact ⟨N + 3, refl_seq hN⟩
  | arr => exact ⟨3, refl_arr⟩
  | @cont c nm s i k fs h1 h2 _ ih =>
    obtain ⟨N, hN⟩ := bound (P := fun n p => Refl n p.2) fs ih
    refine ⟨N + 2, fun n hn => ?_⟩
    obtain ⟨j, rfl, hj⟩ : ∃ j, n = j + 2 ∧ N ≤ j := ⟨n - 2, by omega, by omega⟩
    have key : ∀ i' o ign, N ≤ i' → cmp (i' + 1) (.container ign) o (.obj Option.none c nm s i k fs)
        (.obj Option.none c nm s i k fs) = .pass := by
      intro i' o ign hi'
      simp only [cmp]
      exact containers_refl (h1 ▸ h2) fun p hp => (hN i' hi' p hp).1 o
    refine ⟨fun o => ?_, fun o => ?_, fun hc => by simp [isContainer] at hc, fun _ o ign => key _ o ign (by omega)⟩
    · have := key j o false hj
      simpa [cmp, isSeq] using this
    · have := key j o false hj
      simpa only [cmp] using this
  | @data d c nm s i fs _ hd h1 h2 _ ihd ih =>
    obtain ⟨N, hN⟩ := bound (P := fun n p => Refl n p.2) fs ih
    obtain ⟨M, hM⟩ := ihd
    refine ⟨N + M + 4, fun n hn => ?_⟩
    obtain ⟨j, rfl, hj⟩ : ∃ j, n = j + 2 ∧ N + M + 2 ≤ j := ⟨n - 2, by omega, by omega⟩
    have key : ∀ i' o ign, N ≤ i' → cmp (i' + 1) (.container ign) o (.obj (some d) c nm s i 0 fs)
        (.obj (some d) c nm s i 0 fs) = .pass := by
      intro i' o ign hi'
      simp only [cmp]
      exact containers_refl (h1 ▸ h2) fun p hp => (hN i' hi' p hp).1 o
    have hs := hd hS
    obtain ⟨l, hl⟩ : ∃ l, lenOf d = .ok l := by
      cases d <;> simp [isSeq] at hs <;> exact ⟨_, rfl⟩
    have hdc : isContainer d = false ∧ isData d = false := by
      cases d <;> simp [isSeq] at hs <;> exact ⟨rfl, rfl⟩
    have kd : ∀ o, cmp (j + 1) .data o (.obj (some d) c nm s i 0 fs) (.obj (some d) c nm s i 0 fs) = .pass := by
      intro o
      simp only [cmp, hl, ne_eq, not_true_eq_false, if_false, andThen_pass]
      refine ⟨(hM j (by omega)).2.2.1 hdc.1 hdc.2 o, ?_⟩
      obtain ⟨i', rfl⟩ : ∃ i', j = i' + 1 := ⟨j - 1, by omega⟩
      exact key i' _ _ (by omega)
    refine ⟨fun o => ?_, fun o => ?_, fun _ hc => by simp [isData] at hc, fun _ o ign => key _ o ign (by omega)⟩
    · have := kd o
      rw [cmp]
      simpa [isSeq] using this
    · have := kd o
      rw [cmp]
      exact this

end Verif.Same
