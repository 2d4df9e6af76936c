import Verif.Model.AlignedForeign
import Verif.Props.Hier

/-!
# The foreign columns of aligned tables (C262)
-/

namespace Verif.Hier
open Verif

theorem mem_foreign (cs : List GCol) (n : String) : n ∈ foreignColumns cs ↔ ∃ t, GCol.region n t ∈ cs := by
  induction cs with
  | nil => simp [foreignColumns]
  | cons c cs ih =>
    cases c with
    | plain m => simp [foreignColumns, ih]
    | region m t =>
      simp only [foreignColumns, List.mem_cons, ih, GCol.region.injEq]
      constructor
      · rintro (rfl | ⟨t', h⟩)
        · exact ⟨t, .inl ⟨rfl, rfl⟩⟩
        · exact ⟨t', .inr h⟩
      · rintro ⟨t', ⟨h, -⟩ | h⟩
        · exact .inl h
        · exact .inr ⟨t', h⟩

/-- **C262 (foreign columns).** The columns listed are exactly the region columns of the table, with no category, and, unless these are
ignored, those of each category, with its name. -/
theorem C262_exact (g : Nat → List GCol) (self : Nat) (cats : List (String × Nat)) (ignore : Bool) (c : Option String) (n : String) :
    (c, n) ∈ alignedForeign g self cats ignore ↔
      (c = none ∧ ∃ t, GCol.region n t ∈ g self) ∨
      (ignore = false ∧ ∃ s u, c = some s ∧ (s, u) ∈ cats ∧ ∃ t, GCol.region n t ∈ g u) := by
  unfold alignedForeign
  rw [List.mem_append]
  refine or_congr ?_ ?_
  · simp only [List.mem_map, mem_foreign, Prod.mk.injEq]
    constructor
    · rintro ⟨m, h, rfl, rfl⟩
      exact ⟨rfl, h⟩
    · rintro ⟨rfl, h⟩
      exact ⟨n, h, rfl, rfl⟩
  · cases ignore with
    | true => simp
    | false =>
      simp only [Bool.not_false, if_true, List.mem_flatMap, List.mem_map, mem_foreign, Prod.mk.injEq, true_and]
      constructor
      · rintro ⟨⟨s, u⟩, hc, m, h, rfl, rfl⟩
        exact ⟨s, u, rfl, hc, h⟩
      · rintro ⟨s, u, rfl, hc, h⟩
        exact ⟨(s, u), hc, n, h, rfl, rfl⟩

/-- **C262 (whether there are any).** It is said that there are foreign columns exactly if some table that is asked has one, and exactly if
the list of them is not empty. -/
theorem C262_has (g : Nat → List GCol) (self : Nat) (cats : List (String × Nat)) (ignore : Bool) :
    (alignedHas g self cats ignore = true ↔ alignedForeign g self cats ignore ≠ []) ∧
    (alignedHas g self cats ignore = true ↔ (∃ n t, GCol.region n t ∈ g self) ∨
      (ignore = false ∧ ∃ c ∈ cats, ∃ n t, GCol.region n t ∈ g c.2)) := by
  have hh : ∀ cs : List GCol, hasForeign cs = true ↔ ∃ n t, GCol.region n t ∈ cs := by
    intro cs
    rw [C156_has_foreign]
    constructor
    · intro h
      obtain ⟨n, hn⟩ := List.exists_mem_of_ne_nil _ h
      exact ⟨n, (mem_foreign cs n).1 hn⟩
    · rintro ⟨n, h⟩
      exact List.ne_nil_of_mem ((mem_foreign cs n).2 h)
  have h2 : alignedHas g self cats ignore = true ↔ (∃ n t, GCol.region n t ∈ g self) ∨
      (ignore = false ∧ ∃ c ∈ cats, ∃ n t, GCol.region n t ∈ g c.2) := by
    unfold alignedHas
    rw [← hh]
    cases h : hasForeign (g self) with
    | true => simp
    | false => cases ignore <;> simp [hh]
  refine ⟨h2.trans ⟨?_, ?_⟩, h2⟩
  · rintro (⟨n, h⟩ | ⟨hi, ⟨s, u⟩, hc, n, h⟩)
    · exact List.ne_nil_of_mem ((C262_exact g self cats ignore none n).2 (.inl ⟨rfl, h⟩))
    · exact List.ne_nil_of_mem ((C262_exact g self cats ignore (some s) n).2 (.inr ⟨hi, s, u, rfl, hc, h⟩))
  · intro h
    obtain ⟨⟨c, n⟩, hm⟩ := List.exists_mem_of_ne_nil _ h
    rcases (C262_exact g self cats ignore c n).1 hm with ⟨-, h⟩ | ⟨hi, s, u, -, hc, h⟩
    · exact .inl ⟨n, h⟩
    · exact .inr ⟨hi, (s, u), hc, n, h⟩

/-- **C262 (agreement with the links).** Where the links of an aligned table can be found, they begin with its foreign columns, in the same
order, and no later link starts at the table or at one of the categories that are asked. -/
theorem C262_links (g : Nat → List GCol) (self : Nat) (cats : List (String × Nat)) (ignore : Bool) (U : List Nat)
    (hn : (self :: cats.map Prod.snd).Nodup) (hs : ∀ t ∈ self :: cats.map Prod.snd, t ∈ U)
    (hU : ∀ t ∈ U, ∀ n m, GCol.region n m ∈ g t → ∃ u ∈ U, m = some u) (fuel : Nat) (hf : U.length ≤ fuel) :
    ∃ links, alignedLinkedTables g (fun _ => cats.map Prod.snd) fuel self ignore = .ok links ∧
      (links.map Link.column).take (alignedForeign g self cats ignore).length = (alignedForeign g self cats ignore).map Prod.snd ∧
      ∀ l ∈ links.drop (alignedForeign g self cats ignore).length,
        l.source ≠ self ∧ (ignore = false → ∀ c ∈ cats, l.source ≠ c.2) := by
  let others := if ignore then [] else cats.map Prod.snd
  have hsub : (self :: others).Nodup ∧ ∀ t ∈ self :: others, t ∈ U := by
    cases ignore with
    | true => exact ⟨by simp [others], fun t ht => hs t (by simp [others] at ht; simp [ht])⟩
    | false => exact ⟨hn, hs⟩
  obtain ⟨links, tables, h1, h2, ⟨found, rfl⟩, -, h5, h6, -⟩ := C156_links_partial g self others U hsub.1 hsub.2 hU fuel hf
  have hcols : (alignedForeign g self cats ignore).map Prod.snd = (self :: others).flatMap fun t => foreignColumns (g t) := by
    unfold alignedForeign
    rw [List.map_append, List.flatMap_cons]
    congr 1
    · simp [Function.comp_def]
    · cases ignore with
      | true => rfl
      | false => simp [others, List.map_flatMap, List.flatMap_map, Function.comp_def]
  have hlen : (alignedForeign g self cats ignore).length = ((self :: others).flatMap fun t => foreignColumns (g t)).length := by
    rw [← hcols, List.length_map]
  refine ⟨links, h1, ?_, ?_⟩
  · rw [h6, hcols, List.flatMap_append, hlen, List.take_left]
  · intro l hl
    have hsrc : l.source ∈ (links.map Link.source).drop (alignedForeign g self cats ignore).length := by
      rw [← List.map_drop]
      exact List.mem_map_of_mem hl
    have hl2 : ((self :: others).flatMap fun t => (foreignColumns (g t)).map fun _ => t).length =
        (alignedForeign g self cats ignore).length := by
      rw [hlen]
      simp [List.length_flatMap]
    rw [h5, List.flatMap_append, ← hl2, List.drop_left] at hsrc
    obtain ⟨t, ht, hm⟩ := List.mem_flatMap.1 hsrc
    obtain ⟨_, -, e⟩ := List.mem_map.1 hm
    have hd := (List.nodup_append.1 h2).2.2
    refine ⟨fun e' => hd self (by simp) t ht (by rw [e, e']), ?_⟩
    intro hi c hc e'
    subst hi
    exact hd c.2 (List.mem_cons_of_mem _ (List.mem_map_of_mem hc)) t ht (by rw [e, e'])

/-- a table with two categories, which refer to it and to another table -/
def gAl : Nat → List GCol
  | 0 => [.plain "a", .region "r" (some 3)]
  | 1 => [.region "x" (some 0)]
  | 2 => [.plain "b"]
  | _ => [.region "y" (some 1)]

/-- non-vacuity -/
example : alignedForeign gAl 0 [("c1", 1), ("c2", 2)] false = [(none, "r"), (some "c1", "x")] ∧
    alignedForeign gAl 0 [("c1", 1), ("c2", 2)] true = [(none, "r")] ∧ alignedHas gAl 2 [("c", 1)] true = false ∧
    alignedHas gAl 2 [("c", 1)] false = true ∧
    alignedLinkedTables gAl (fun _ => [1, 2]) 4 0 false = .ok [⟨0, "r", some 3⟩, ⟨1, "x", some 0⟩, ⟨3, "y", some 1⟩] := by
  decide +kernel

example : ([0, 1, 2] : List Nat).Nodup ∧ (∀ t ∈ [0, 1, 2], t ∈ [0, 1, 2, 3]) ∧
    (∀ t ∈ [0, 1, 2, 3], ∀ n m, GCol.region n m ∈ gAl t → ∃ u ∈ [0, 1, 2, 3], m = some u) := by
  refine ⟨by decide, by decide, ?_⟩
  intro t ht n m h
  simp only [List.mem_cons, List.not_mem_nil, or_false] at ht
  rcases ht with rfl | rfl | rfl | rfl <;> simp [gAl] at h <;> simp [h]

end Verif.Hier
