import Verif.Model.Hier
import Mathlib.Data.List.Perm.Subperm

/-!
# Lemmas about linked tables and hierarchical data frames
-/

namespace Verif.Hier
open Verif

/-! ## Linked tables -/

/-- the links of one table -/
def linksOf (src : Nat) : List GCol → List Link
  | [] => []
  | .plain _ :: cs => linksOf src cs
  | .region n t :: cs => ⟨src, n, t⟩ :: linksOf src cs

def linksO (g : Nat → List GCol) : Option Nat → List Link
  | none => []
  | some t => linksOf t (g t)

theorem mem_linksOf {src : Nat} {l : Link} : ∀ {cs : List GCol}, l ∈ linksOf src cs ↔ l.source = src ∧ GCol.region l.column l.target ∈ cs
  | [] => by simp [linksOf]
  | .plain n :: cs => by
    rw [linksOf, mem_linksOf]
    simp
  | .region n t :: cs => by
    rw [linksOf, List.mem_cons, mem_linksOf, List.mem_cons]
    constructor
    · rintro (rfl | ⟨h1, h2⟩)
      · exact ⟨rfl, .inl rfl⟩
      · exact ⟨h1, .inr h2⟩
    · rintro ⟨h1, h2 | h2⟩
      · left
        obtain ⟨a, b⟩ := GCol.region.inj h2
        cases l
        simp only at h1 a b
        rw [h1, a, b]
      · exact .inr ⟨h1, h2⟩

theorem visit_spec (src : Nat) : ∀ (cs : List GCol) (s : List (Option Nat) × List Link),
    (visit src cs s).2 = s.2 ++ linksOf src cs ∧ (∃ N, (visit src cs s).1 = s.1 ++ N) ∧ (s.1.Nodup → (visit src cs s).1.Nodup) ∧
    ∀ t, t ∈ (visit src cs s).1 ↔ t ∈ s.1 ∨ ∃ n, GCol.region n t ∈ cs
  | [], s => ⟨by simp [visit, linksOf], ⟨[], by simp [visit]⟩, fun h => h, by simp [visit]⟩
  | .plain n :: cs, s => by
    obtain ⟨h1, h2, h3, h4⟩ := visit_spec src cs s
    refine ⟨h1, h2, h3, ?_⟩
    intro t
    show t ∈ (visit src cs s).1 ↔ _
    rw [h4 t]
    simp
  | .region n t :: cs, s => by
    obtain ⟨h1, ⟨N, h2⟩, h3, h4⟩ := visit_spec src cs (if t ∈ s.1 then s.1 else s.1 ++ [t], s.2 ++ [⟨src, n, t⟩])
    refine ⟨?_, ?_, ?_, ?_⟩
    · show (visit src cs _).2 = _
      rw [h1]
      show (s.2 ++ [_]) ++ _ = s.2 ++ (_ :: _)
      rw [List.append_assoc]; rfl
    · show ∃ N, (visit src cs _).1 = _
      rw [h2]
      by_cases ht : t ∈ s.1
      · exact ⟨N, by simp only [if_pos ht]⟩
      · exact ⟨t :: N, by simp only [if_neg ht]; rw [List.append_assoc]; rfl⟩
    · intro hn
      apply h3
      by_cases ht : t ∈ s.1
      · simp only [if_pos ht]; exact hn
      · simp only [if_neg ht]
        rw [List.nodup_append]
        refine ⟨hn, by simp, ?_⟩
        intro a ha b hb e
        rw [List.mem_singleton.1 hb] at e
        exact ht (e ▸ ha)
    · intro u
      show u ∈ (visit src cs _).1 ↔ _
      rw [h4 u]
      by_cases ht : t ∈ s.1
      · simp only [if_pos ht, List.mem_cons, GCol.region.injEq]
        constructor
        · rintro (h | ⟨m, h⟩)
          · exact .inl h
          · exact .inr ⟨m, .inr h⟩
        · rintro (h | ⟨m, ⟨-, h⟩ | h⟩)
          · exact .inl h
          · exact .inl (h ▸ ht)
          · exact .inr ⟨m, h⟩
      · simp only [if_neg ht, List.mem_cons, GCol.region.injEq, List.mem_append, List.not_mem_nil, or_false]
        constructor
        · rintro ((h | h) | ⟨m, h⟩)
          · exact .inl h
          · exact .inr ⟨n, .inl ⟨rfl, h⟩⟩
          · exact .inr ⟨m, .inr h⟩
        · rintro (h | ⟨m, ⟨-, h⟩ | h⟩)
          · exact .inl (.inl h)
          · exact .inl (.inr h)
          · exact .inr ⟨m, h⟩

theorem linkLoop_spec (g : Nat → List GCol) (U : List Nat) (hU : ∀ t ∈ U, ∀ n m, GCol.region n m ∈ g t → ∃ u ∈ U, m = some u) :
    ∀ (fuel i : Nat) (T : List (Option Nat)) (acc : List Link), T.Nodup → (∀ x ∈ T, ∃ u ∈ U, x = some u) → i ≤ T.length →
    acc = (T.take i).flatMap (linksO g) → (∀ t, some t ∈ T.take i → ∀ n m, GCol.region n m ∈ g t → m ∈ T) → U.length ≤ fuel + i →
    ∃ V, linkLoop g fuel i (T, acc) = .ok (V.flatMap (linksO g)) ∧ V.Nodup ∧ (∃ N, V = T ++ N) ∧ (∀ x ∈ V, ∃ u ∈ U, x = some u) ∧
      (∀ t, some t ∈ V → ∀ n m, GCol.region n m ∈ g t → m ∈ V) ∧
      (∀ P : Option Nat → Prop, (∀ x ∈ T, P x) → (∀ t n m, P (some t) → GCol.region n m ∈ g t → P m) → ∀ x ∈ V, P x) := by
  intro fuel
  induction fuel with
  | zero =>
    intro i T acc hn hin hi hacc hcl hf
    have hlen : T.length ≤ U.length := by
      have : T.Subperm (U.map some) := List.subperm_of_subset hn (by
        intro x hx
        obtain ⟨u, hu, rfl⟩ := hin x hx
        exact List.mem_map_of_mem hu)
      have := this.length_le
      rwa [List.length_map] at this
    have hiT : T.length ≤ i := by omega
    have hnone : T[i]? = none := List.getElem?_eq_none hiT
    refine ⟨T, ?_, hn, ⟨[], by simp⟩, hin, ?_, fun P h _ => h⟩
    · unfold linkLoop
      simp only [hnone]
      rw [hacc, List.take_of_length_le hiT]
    · rw [List.take_of_length_le hiT] at hcl
      exact hcl
  | succ fuel ih =>
    intro i T acc hn hin hi hacc hcl hf
    by_cases hiT : T.length ≤ i
    · have hnone : T[i]? = none := List.getElem?_eq_none hiT
      refine ⟨T, ?_, hn, ⟨[], by simp⟩, hin, ?_, fun P h _ => h⟩
      · unfold linkLoop
        simp only [hnone]
        rw [hacc, List.take_of_length_le hiT]
      · rw [List.take_of_length_le hiT] at hcl
        exact hcl
    · have hlt : i < T.length := by omega
      obtain ⟨u, hu, hTu⟩ := hin T[i] (List.getElem_mem hlt)
      have hsome : T[i]? = some (some u) := by rw [List.getElem?_eq_getElem hlt, hTu]
      obtain ⟨h1, ⟨N, h2⟩, h3, h4⟩ := visit_spec u (g u) (T, acc)
      have hvis : visit u (g u) (T, acc) = (T ++ N, acc ++ linksOf u (g u)) := by
        rw [← h1]
        simp only at h2
        rw [← h2]
      have hTN : (T ++ N).take (i + 1) = T.take i ++ [some u] := by
        rw [List.take_append_of_le_length (by omega), List.take_add_one, hsome]
        rfl
      simp only [hvis] at h3 h4
      obtain ⟨V, g1, g2, ⟨N', g3⟩, g4, g5, g6⟩ := ih (i + 1) (T ++ N) (acc ++ linksOf u (g u)) (h3 hn) (by
        intro x hx
        rcases (h4 x).1 hx with h | ⟨n, h⟩
        · exact hin x h
        · exact hU u hu n x h) (by rw [List.length_append]; omega) (by
          rw [hTN, List.flatMap_append, hacc]
          simp [linksO]) (by
          intro t ht n m hm
          rw [hTN] at ht
          rcases List.mem_append.1 ht with h | h
          · exact List.mem_append.2 (.inl (hcl t h n m hm))
          · rw [List.mem_singleton] at h
            cases h
            exact (h4 m).2 (.inr ⟨n, hm⟩)) (by omega)
      refine ⟨V, ?_, g2, ⟨N ++ N', by rw [g3, List.append_assoc]⟩, g4, g5, ?_⟩
      · unfold linkLoop
        simp only [hsome, hvis]
        exact g1
      · intro P hP hstep
        apply g6 P _ hstep
        intro x hx
        rcases (h4 x).1 hx with h | ⟨n, h⟩
        · exact hP x h
        · exact hstep u n x (hP _ (by rw [← hTu]; exact List.getElem_mem hlt)) h

/-! ## Hierarchical data frames -/

variable {V : Type} [DecidableEq V]

theorem flatMap_range {α β : Type} (f : α → List β) : ∀ (rows : List α),
    (List.range rows.length).flatMap (fun i => match rows[i]? with | none => [] | some r => f r) = rows.flatMap f
  | [] => rfl
  | r :: rows => by
    rw [List.length_cons, List.range_succ_eq_map, List.flatMap_cons, List.flatMap_map]
    show f r ++ _ = _
    rw [List.flatMap_cons, ← flatMap_range f rows]
    rfl

theorem allRows_ok (refs : List (Cell V) → List Nat → Except Err (List (List (Cell V) × List (Cell V))))
    (f : Int × List V × List Nat → List (List (Cell V) × List (Cell V))) : ∀ (rows : List (Int × List V × List Nat)),
    (∀ r ∈ rows, refs (.id r.1 :: r.2.1.map .val) r.2.2 = .ok (f r)) → allRows refs rows = .ok (rows.flatMap f)
  | [], _ => rfl
  | r :: rs, h => by
    unfold allRows
    rw [h r (by simp), allRows_ok refs f rs (fun x hx => h x (List.mem_cons_of_mem _ hx))]
    rfl

theorem allRows_inv (refs : List (Cell V) → List Nat → Except Err (List (List (Cell V) × List (Cell V))))
    (P : List (Cell V) × List (Cell V) → Prop) : ∀ (rows : List (Int × List V × List Nat)) (out : List (List (Cell V) × List (Cell V))),
    (∀ r ∈ rows, ∀ o, refs (.id r.1 :: r.2.1.map .val) r.2.2 = .ok o → ∀ x ∈ o, P x) → allRows refs rows = .ok out → ∀ x ∈ out, P x
  | [], out, _, h => by cases h; intro x hx; cases hx
  | r :: rs, out, hP, h => by
    unfold allRows at h
    split at h
    · cases h
    · rename_i o ho
      split at h
      · rename_i outs houts
        cases h
        intro x hx
        rcases List.mem_append.1 hx with h1 | h1
        · exact hP r (by simp) o ho x h1
        · exact allRows_inv refs P rs outs (fun r hr => hP r (List.mem_cons_of_mem _ hr)) houts x h1
      · cases h

theorem leafRefs_ok (t : HTab V) (pre : List (Cell V)) (f : Nat → List (Cell V)) : ∀ (js : List Nat), (∀ j ∈ js, t.tuple j = some (f j)) →
    leafRefs t pre js = .ok (js.map (fun j => (pre, f j)))
  | [], _ => rfl
  | j :: js, h => by
    unfold leafRefs
    rw [h j (by simp)]
    simp only
    rw [leafRefs_ok t pre f js (fun x hx => h x (List.mem_cons_of_mem _ hx))]
    rfl

theorem leafRefs_inv (t : HTab V) (pre : List (Cell V)) : ∀ (js : List Nat) (o : List (List (Cell V) × List (Cell V))), leafRefs t pre js = .ok o →
    ∀ x ∈ o, x.1 = pre ∧ ∃ j ∈ js, t.tuple j = some x.2
  | [], o, h => by cases h; intro x hx; cases hx
  | j :: js, o, h => by
    unfold leafRefs at h
    split at h
    · cases h
    · rename_i d hd
      split at h
      · rename_i rs hrs
        cases h
        intro x hx
        rcases List.mem_cons.1 hx with rfl | hx
        · exact ⟨rfl, j, by simp, hd⟩
        · obtain ⟨h1, k, hk, h2⟩ := leafRefs_inv t pre js rs hrs x hx
          exact ⟨h1, k, List.mem_cons_of_mem _ hk, h2⟩
      · cases h

theorem nodeRefs_ok (ids : List Int) (hdf : List (List (Cell V) × List (Cell V))) (pre : List (Cell V))
    (f : Nat → List (List (Cell V) × List (Cell V))) : ∀ (js : List Nat), (∀ j ∈ js, ∃ i, ids[j]? = some i ∧ loc hdf i = .ok (f j)) →
    nodeRefs ids hdf pre js = .ok (js.flatMap (fun j => (f j).map (fun r => (pre ++ r.1, r.2))))
  | [], _ => rfl
  | j :: js, h => by
    obtain ⟨i, h1, h2⟩ := h j (by simp)
    unfold nodeRefs
    rw [h1]
    simp only
    rw [h2]
    simp only
    rw [nodeRefs_ok ids hdf pre f js (fun x hx => h x (List.mem_cons_of_mem _ hx))]
    rfl

theorem nodeRefs_inv (ids : List Int) (hdf : List (List (Cell V) × List (Cell V))) (pre : List (Cell V)) : ∀ (js : List Nat)
    (o : List (List (Cell V) × List (Cell V))), nodeRefs ids hdf pre js = .ok o → ∀ x ∈ o, ∃ r ∈ hdf, x = (pre ++ r.1, r.2)
  | [], o, h => by cases h; intro x hx; cases hx
  | j :: js, o, h => by
    unfold nodeRefs at h
    split at h
    · cases h
    · split at h
      · cases h
      · rename_i found hf
        split at h
        · rename_i rs hrs
          cases h
          intro x hx
          rcases List.mem_append.1 hx with h1 | h1
          · obtain ⟨r, hr, rfl⟩ := List.mem_map.1 h1
            refine ⟨r, ?_, rfl⟩
            unfold loc at hf
            split at hf
            · cases hf
            · rename_i a as has
              cases hf
              exact (List.mem_filter.1 (has ▸ hr)).1
          · exact nodeRefs_inv ids hdf pre js rs hrs x h1
        · cases h

/-- filtering the concatenation of groups by a key that only one group has -/
theorem filter_groups {α : Type} (p : α → Bool) (f : Nat → List α) (j : Nat) : ∀ (n : Nat), (∀ k < n, k ≠ j → ∀ x ∈ f k, p x = false) →
    (∀ x ∈ f j, p x = true) → ((List.range n).flatMap f).filter p = if j < n then f j else []
  | 0, _, _ => rfl
  | n + 1, h, hj => by
    rw [List.range_succ, List.flatMap_append, List.filter_append, filter_groups p f j n (fun k hk => h k (by omega)) hj]
    have e : (List.flatMap f [n]) = f n := by simp
    rw [e]
    by_cases hn : n = j
    · subst hn
      rw [if_neg (by omega), if_pos (by omega), List.filter_eq_self.2 hj]
      rfl
    · have : (f n).filter p = [] := by
        rw [List.filter_eq_nil_iff]
        intro x hx
        rw [h n (by omega) hn x hx]
        simp
      rw [this, List.append_nil]
      by_cases hlt : j < n
      · rw [if_pos hlt, if_pos (by omega)]
      · rw [if_neg hlt, if_neg (by omega)]

/-! ## Labels -/

mutual
def leaves : Label → List String
  | .str s => [s]
  | .tup ls => leavesL ls
def leavesL : List Label → List String
  | [] => []
  | l :: ls => leaves l ++ leavesL ls
end

mutual
def depth : Label → Nat
  | .str _ => 0
  | .tup ls => 1 + depthL ls
def depthL : List Label → Nat
  | [] => 0
  | l :: ls => max (depth l) (depthL ls)
end

theorem leavesL_append : ∀ (a b : List Label), leavesL (a ++ b) = leavesL a ++ leavesL b
  | [], b => rfl
  | l :: a, b => by
    show leaves l ++ leavesL (a ++ b) = (leaves l ++ leavesL a) ++ leavesL b
    rw [leavesL_append, List.append_assoc]

theorem depthL_append : ∀ (a b : List Label), depthL (a ++ b) = max (depthL a) (depthL b)
  | [], b => by
    show depthL b = max 0 (depthL b)
    omega
  | l :: a, b => by
    show max (depth l) (depthL (a ++ b)) = max (max (depth l) (depthL a)) (depthL b)
    rw [depthL_append]
    omega

theorem flattenOnce_spec : ∀ (ls : List Label), leavesL (flattenOnce ls) = leavesL ls ∧ depthL (flattenOnce ls) ≤ depthL ls - 1
  | [] => ⟨rfl, by simp [flattenOnce, depthL]⟩
  | .str s :: rest => by
    obtain ⟨h1, h2⟩ := flattenOnce_spec rest
    refine ⟨?_, ?_⟩
    · show leaves (.str s) ++ leavesL (flattenOnce rest) = _
      rw [h1]; rfl
    · show max 0 (depthL (flattenOnce rest)) ≤ max 0 (depthL rest) - 1
      omega
  | .tup ls :: rest => by
    obtain ⟨h1, h2⟩ := flattenOnce_spec rest
    refine ⟨?_, ?_⟩
    · show leavesL (ls ++ flattenOnce rest) = leavesL ls ++ leavesL rest
      rw [leavesL_append, h1]
    · show depthL (ls ++ flattenOnce rest) ≤ max (1 + depthL ls) (depthL rest) - 1
      rw [depthL_append]
      omega

theorem flat_leaves : ∀ (ls : List Label), ls.any Label.isTuple = false → ls = (leavesL ls).map .str
  | [], _ => rfl
  | .str s :: ls, h => by
    show _ = Label.str s :: (leavesL ls).map .str
    rw [← flat_leaves ls (by simpa [Label.isTuple] using h)]
  | .tup l :: ls, h => by simp [Label.isTuple] at h

theorem depth_zero : ∀ (ls : List Label), depthL ls = 0 → ls.any Label.isTuple = false
  | [], _ => rfl
  | .str s :: ls, h => by
    have : depthL ls = 0 := by
      have e : depthL (.str s :: ls) = max 0 (depthL ls) := rfl
      omega
    rw [List.any_cons, depth_zero ls this]
    rfl
  | .tup l :: ls, h => by
    have e : depthL (.tup l :: ls) = max (1 + depthL l) (depthL ls) := rfl
    omega

theorem flattenLoop_spec : ∀ (fuel : Nat) (ls : List Label), depthL ls ≤ fuel → flattenLoop fuel ls = some ((leavesL ls).map .str)
  | 0, ls, h => by
    have := depth_zero ls (by omega)
    unfold flattenLoop
    rw [this]
    simp only [Bool.false_eq_true, if_false]
    rw [← flat_leaves ls this]
  | fuel + 1, ls, h => by
    unfold flattenLoop
    cases ht : ls.any Label.isTuple with
    | false =>
      simp only [Bool.false_eq_true, if_false]
      rw [← flat_leaves ls ht]
    | true =>
      simp only [if_true]
      obtain ⟨h1, h2⟩ := flattenOnce_spec ls
      rw [flattenLoop_spec fuel (flattenOnce ls) (by omega), h1]

/-! ## Tables from data frames -/

theorem cellLens_many {W : Type} : ∀ (cs : List (DCell W)) (ns : List Nat), cellLens cs = .ok ns → ∃ vss : List (List (DCell W)), cs = vss.map .many ∧
    ns = vss.map List.length ∧ concatCells cs = vss.flatten
  | [], ns, h => by cases h; exact ⟨[], rfl, rfl, rfl⟩
  | .one v :: cs, ns, h => by cases h
  | .many vs :: cs, ns, h => by
    unfold cellLens at h
    split at h
    · rename_i ms hms
      cases h
      obtain ⟨vss, rfl, rfl, e⟩ := cellLens_many cs ms hms
      exact ⟨vs :: vss, rfl, rfl, by unfold concatCells; rw [e]; rfl⟩
    · cases h

theorem cellLens_ok {W : Type} : ∀ (vss : List (List (DCell W))), cellLens (vss.map DCell.many) = .ok (vss.map List.length)
  | [] => rfl
  | vs :: vss => by
    rw [List.map_cons]
    unfold cellLens
    rw [cellLens_ok vss]
    rfl

theorem ends_get (ns : List Nat) : ∀ (acc i : Nat), (ends acc ns)[i]? = if i < ns.length then some (acc + (ns.take (i + 1)).sum) else none := by
  induction ns with
  | nil => intro acc i; simp [ends]
  | cons n ns ih =>
    intro acc i
    cases i with
    | zero => simp [ends]
    | succ i =>
      show (ends (acc + n) ns)[i]? = _
      rw [ih]
      simp only [List.length_cons, Nat.add_lt_add_iff_right, List.take_succ_cons, List.sum_cons]
      split
      · rw [Nat.add_assoc]
      · rfl

theorem take_flatten {α : Type} : ∀ (vss : List (List α)) (i : Nat), vss.flatten.take ((vss.map List.length).take i).sum = (vss.take i).flatten
  | vss, 0 => by simp
  | [], i + 1 => by simp
  | vs :: vss, i + 1 => by
    simp only [List.map_cons, List.take_succ_cons, List.sum_cons, List.flatten_cons]
    rw [List.take_length_add_append, take_flatten vss i]

theorem slice_flatten {α : Type} (vss : List (List α)) (i : Nat) (h : i < vss.length) :
    (vss.flatten.take ((vss.map List.length).take (i + 1)).sum).drop ((vss.map List.length).take i).sum = vss[i] := by
  rw [take_flatten, List.take_add_one, List.getElem?_eq_getElem h, List.flatten_append]
  have : ((vss.map List.length).take i).sum = (vss.take i).flatten.length := by
    rw [List.length_flatten, List.map_take]
  rw [this, List.drop_left]
  simp

theorem tail_dropLast : ∀ (ns : List Nat), ns.tail = ns.dropLast ↔ ∀ a ∈ ns, ∀ b ∈ ns, a = b
  | [] => by simp
  | [n] => by simp
  | n :: m :: ns => by
    have ih := tail_dropLast (m :: ns)
    simp only [List.tail_cons] at ih ⊢
    rw [List.dropLast_cons_of_ne_nil (by simp)]
    constructor
    · intro h
      obtain ⟨h1, h2⟩ := List.cons.inj h
      have := ih.1 h2
      intro a ha b hb
      have key : ∀ c ∈ n :: m :: ns, c = m := by
        intro c hc
        rcases List.mem_cons.1 hc with rfl | hc
        · exact h1.symm
        · exact this c hc m (by simp)
      rw [key a ha, key b hb]
    · intro h
      have h1 : ns = (m :: ns).dropLast := ih.2 (fun a ha b hb => h a (List.mem_cons_of_mem _ ha) b (List.mem_cons_of_mem _ hb))
      rw [← h1, h m (by simp) n (by simp)]

end Verif.Hier
