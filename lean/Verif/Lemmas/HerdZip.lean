import Verif.Model.HerdZip
import Verif.Props.Herd

/-! # Reading columns, and files that are written and removed -/

namespace Verif.HerdZip
open Verif Verif.Herd List

/-- a column whose text is read as it was written: what counts as missing is empty, and if not all cells are empty then one is no
number and one is no truth value -/
def Texty (l : List String) : Prop :=
  (∀ s ∈ l, isNA s = true → s = "") ∧
  ((∀ s ∈ l, s = "") ∨
    (∃ s ∈ l, isNA s = false ∧ parseInt s = none ∧ isFloat s = false) ∧ ∃ s ∈ l, isNA s = false ∧ parseBool s = none)

theorem isNA_empty : isNA "" = true := by decide +kernel

theorem map_str_iff {l : List String} {f : String → Cell} : l.map f = l.map Cell.str ↔ ∀ s ∈ l, f s = .str s := by
  rw [List.map_inj_left]

theorem readText_iff (l : List String) : readText l = l.map Cell.str ↔ Texty l := by
  unfold readText
  simp only
  -- a cell that is not missing
  by_cases hall : ∀ s ∈ l, isNA s = true
  · -- all missing
    have hv : (l.filter fun s => !isNA s) = [] := by
      rw [filter_eq_nil_iff]; intro s hs; simp [hall s hs]
    rw [hv]
    simp only [all_nil, if_true]
    rw [map_str_iff]
    constructor
    · intro h
      have h' : ∀ s ∈ l, s = "" := by
        intro s hs
        have := h s hs
        rw [if_pos (hall s hs)] at this
        simpa using this.symm
      exact ⟨fun s hs _ => h' s hs, .inl h'⟩
    · rintro ⟨h, _⟩ s hs
      rw [if_pos (hall s hs), h s hs (hall s hs)]
  · simp only [not_forall, Bool.not_eq_true] at hall
    obtain ⟨s0, hs0, hn0⟩ := hall
    have hne : ¬ ∀ s ∈ l, s = "" := by
      intro h
      rw [h s0 hs0, isNA_empty] at hn0
      cases hn0
    split
    · rename_i hi
      rw [all_eq_true] at hi
      have hi' : ∀ s ∈ l, isNA s = false → (parseInt s).isSome = true := fun s hs hn => hi s (by simp [hs, hn])
      constructor
      · intro h
        rw [map_str_iff] at h
        have h0 := h s0 hs0
        obtain ⟨i, hp⟩ := Option.isSome_iff_exists.1 (hi' s0 hs0 hn0)
        simp only [hn0, hp, Bool.false_eq_true, if_false] at h0
        split at h0 <;> cases h0
      · rintro ⟨_, h | ⟨⟨s, hs, hn, hp, _⟩, _⟩⟩
        · exact absurd h hne
        · have := hi' s hs hn
          rw [hp] at this; cases this
    · split
      · rename_i hi
        rw [all_eq_true] at hi
        have hi' : ∀ s ∈ l, isNA s = false → ((parseInt s).isSome || isFloat s) = true := fun s hs hn => hi s (by simp [hs, hn])
        constructor
        · intro h
          rw [map_str_iff] at h
          have h0 := h s0 hs0
          simp only [hn0, Bool.false_eq_true, if_false] at h0
          cases h0
        · rintro ⟨_, h | ⟨⟨s, hs, hn, hp, hf⟩, _⟩⟩
          · exact absurd h hne
          · have := hi' s hs hn
            rw [hp, hf] at this; cases this
      · split
        · rename_i hi
          rw [all_eq_true] at hi
          have hi' : ∀ s ∈ l, isNA s = false → (parseBool s).isSome = true := fun s hs hn => hi s (by simp [hs, hn])
          constructor
          · intro h
            rw [map_str_iff] at h
            have h0 := h s0 hs0
            obtain ⟨i, hp⟩ := Option.isSome_iff_exists.1 (hi' s0 hs0 hn0)
            simp only [hn0, hp, Bool.false_eq_true, if_false] at h0
            cases h0
          · rintro ⟨_, h | ⟨_, s, hs, hn, hp⟩⟩
            · exact absurd h hne
            · have := hi' s hs hn
              rw [hp] at this; cases this
        · rename_i h1 h2 h3
          rw [map_str_iff]
          constructor
          · intro h
            refine ⟨fun s hs hn => ?_, .inr ⟨?_, ?_⟩⟩
            · have := h s hs
              rw [if_pos hn] at this
              simpa using this.symm
            · simp only [all_eq_true, not_forall, mem_filter] at h2
              obtain ⟨s, ⟨hs, hn⟩, hp⟩ := h2
              simp only [Bool.or_eq_true, not_or, Bool.not_eq_true, Option.isSome_eq_false_iff, Option.isNone_iff_eq_none] at hp
              exact ⟨s, hs, by simpa using hn, hp.1, hp.2⟩
            · simp only [all_eq_true, not_forall, mem_filter] at h3
              obtain ⟨s, ⟨hs, hn⟩, hp⟩ := h3
              exact ⟨s, hs, by simpa using hn, by simpa using hp⟩
          · rintro ⟨h, _⟩ s hs
            by_cases hn : isNA s = true
            · rw [if_pos hn, h s hs hn]
            · rw [if_neg hn]

/-! ## Files -/

theorem foldl_set {α : Type} (p : α → Path) (f : α → File) (l : List α) (fs : FS) (q : Path) (hq : ∀ x ∈ l, p x ≠ q) :
    l.foldl (fun fs x => FS.set fs (p x) (f x)) fs q = fs q := by
  induction l generalizing fs with
  | nil => rfl
  | cons x l ih =>
    rw [foldl_cons, ih _ fun y hy => hq y (by simp [hy])]
    exact if_neg fun h => hq x (by simp) h.symm

theorem foldl_set_mem {α : Type} (p : α → Path) (f : α → File) (l : List α) (hn : (l.map p).Nodup) (fs : FS) (x : α) (hx : x ∈ l) :
    l.foldl (fun fs x => FS.set fs (p x) (f x)) fs (p x) = some (f x) := by
  induction l generalizing fs with
  | nil => cases hx
  | cons y l ih =>
    rw [map_cons, nodup_cons] at hn
    rw [foldl_cons]
    rcases mem_cons.1 hx with rfl | hx
    · rw [foldl_set]
      · exact if_pos rfl
      · intro z hz h
        exact hn.1 (h ▸ mem_map_of_mem hz)
    · exact ih hn.2 _ hx

theorem foldl_remove {α : Type} (p : α → Path) (l : List α) (fs : FS) (q : Path) (hq : ∀ x ∈ l, p x ≠ q) :
    l.foldl (fun fs x => FS.remove fs (p x)) fs q = fs q := by
  induction l generalizing fs with
  | nil => rfl
  | cons x l ih =>
    rw [foldl_cons, ih _ fun y hy => hq y (by simp [hy])]
    exact if_neg fun h => hq x (by simp) h.symm

theorem foldl_remove_none {α : Type} (p : α → Path) (l : List α) (fs : FS) (q : Path) (hq : fs q = none) :
    l.foldl (fun fs x => FS.remove fs (p x)) fs q = none := by
  induction l generalizing fs with
  | nil => exact hq
  | cons x l ih =>
    rw [foldl_cons]
    apply ih
    unfold FS.remove
    split
    · rfl
    · exact hq

theorem foldl_remove_mem {α : Type} (p : α → Path) (l : List α) (fs : FS) (x : α) (hx : x ∈ l) :
    l.foldl (fun fs x => FS.remove fs (p x)) fs (p x) = none := by
  induction l generalizing fs with
  | nil => cases hx
  | cons y l ih =>
    rw [foldl_cons]
    rcases mem_cons.1 hx with rfl | hx
    · exact foldl_remove_none _ _ _ _ (if_pos rfl)
    · exact ih _ hx

theorem sheets_names (h : Herd) : (sheets h).map (·.1) = tableFiles := rfl

theorem tableFiles_nodup : tableFiles.Nodup := by decide +kernel

theorem sheet_mem (h : Herd) {s : String × Tsv} (hs : s ∈ sheets h) : s.1 ∈ tableFiles := by
  rw [← sheets_names h]; exact mem_map_of_mem hs

/-- what `to_zip` leaves: the zip file, no tables, and everything else as it was -/
theorem toZip_get (cwd : Path) (a : Arg) (h : Herd) (fs : FS) (hb : a.base ∉ tableFiles) :
    toZip cwd a h fs (directory cwd a ++ [a.base]) = some (.zip ((sheets h).map fun s => (a.dir ++ [s.1], s.2))) ∧
    (∀ f ∈ tableFiles, toZip cwd a h fs (directory cwd a ++ [f]) = none) ∧
    ∀ q, q ≠ directory cwd a ++ [a.base] → (∀ f ∈ tableFiles, q ≠ directory cwd a ++ [f]) → toZip cwd a h fs q = fs q := by
  unfold toZip
  refine ⟨?_, fun f hf => ?_, fun q hq hq' => ?_⟩
  · rw [foldl_remove (fun s : String × Tsv => directory cwd a ++ [s.1])]
    · exact if_pos rfl
    · intro s hs he
      simp only [List.append_cancel_left_eq, cons.injEq, and_true] at he
      exact hb (he ▸ sheet_mem h hs)
  · rw [← sheets_names h, mem_map] at hf
    obtain ⟨s, hs, rfl⟩ := hf
    exact foldl_remove_mem (fun s : String × Tsv => directory cwd a ++ [s.1]) _ _ _ hs
  · rw [foldl_remove (fun s : String × Tsv => directory cwd a ++ [s.1]) _ _ _ fun s hs he => hq' _ (sheet_mem h hs) he.symm]
    rw [show (FS.set _ _ _) q = _ from if_neg hq]
    exact foldl_set (fun s : String × Tsv => directory cwd a ++ [s.1]) (fun s => .tsv s.2) _ _ _
      fun s hs he => hq' _ (sheet_mem h hs) he.symm

/-- the tables as they are read back -/
def readTables (h : Herd) : Tables := fun f => match (sheets h).find? (fun s => s.1 = f) with
  | none => []
  | some s => s.2.map readCol

/-- every column of text is read as it was written -/
def HerdTexty (h : Herd) : Prop :=
  Texty h.keys ∧ Texty h.files ∧ Texty (h.entities.map (·.1)) ∧ Texty (h.entities.map (·.2)) ∧
  Texty (h.objects.map (·.oid)) ∧ Texty (h.objects.map (·.otype)) ∧ Texty (h.objects.map (·.path)) ∧
  Texty (h.objects.map (·.field))

theorem readText_length (l : List String) : (readText l).length = l.length := by
  unfold readText
  simp only
  repeat' split
  all_goals simp

theorem find_sheet (h : Herd) {s : String × Tsv} (hs : s ∈ sheets h) : (sheets h).find? (fun t => t.1 = s.1) = some s := by
  simp only [sheets, mem_cons, not_mem_nil, or_false] at hs
  rcases hs with rfl | rfl | rfl | rfl | rfl | rfl <;> rfl

theorem checks_read {h : Herd} (i : Inv h) : checks (readTables h) = true := by
  have a1 : ∀ (l : List Nat) (n : Nat), (∀ x ∈ l, x < n) → idxOk (some (readCol (.ints l))) n = true := by
    intro l n hl
    simp only [idxOk, readCol, Option.getD_some, all_eq_true, mem_map]
    rintro c ⟨x, hx, rfl⟩
    have := hl x hx
    simp only [decide_eq_true_eq]
    omega
  have e1 : readTables h "keys.tsv" = [readCol (.text h.keys)] := rfl
  have e2 : readTables h "files.tsv" = [readCol (.text h.files)] := rfl
  have e3 : readTables h "entities.tsv" = [readCol (.text (h.entities.map (·.1))), readCol (.text (h.entities.map (·.2)))] := rfl
  have e4 : readTables h "objects.tsv" = [readCol (.ints (h.objects.map (·.file))), readCol (.text (h.objects.map (·.oid))),
    readCol (.text (h.objects.map (·.otype))), readCol (.text (h.objects.map (·.path))), readCol (.text (h.objects.map (·.field)))] := rfl
  have e5 : readTables h "object_keys.tsv" = [readCol (.ints (h.objectKeys.map (·.1))), readCol (.ints (h.objectKeys.map (·.2)))] := rfl
  have e6 : readTables h "entity_keys.tsv" = [readCol (.ints (h.entityKeys.map (·.1))), readCol (.ints (h.entityKeys.map (·.2)))] := rfl
  unfold checks
  rw [e1, e2, e3, e4, e5, e6]
  simp only [Bool.and_eq_true, rows, headD_cons]
  have l1 : (readCol (.text h.keys)).length = h.keys.length := readText_length _
  have l2 : (readCol (.text h.files)).length = h.files.length := readText_length _
  have l3 : (readCol (.text (h.entities.map (·.1)))).length = h.entities.length := by simp [readCol, readText_length]
  have l4 : (readCol (.ints (h.objects.map (·.file)))).length = h.objects.length := by simp [readCol]
  rw [l1, l2, l3, l4]
  refine ⟨⟨⟨⟨a1 _ _ ?_, a1 _ _ ?_⟩, a1 _ _ ?_⟩, a1 _ _ ?_⟩, a1 _ _ ?_⟩ <;> intro x hx <;> rw [mem_map] at hx <;>
    obtain ⟨r, hr, rfl⟩ := hx
  · exact (i.ek r hr).1
  · exact i.objs r hr
  · exact (i.ok r hr).1
  · exact (i.ok r hr).2
  · exact (i.ek r hr).2

/-- what `from_zip` gives when the members of the zip file are extracted beside it -/
theorem fromZip_flat {cwd : Path} {a : Arg} {h : Herd} {fs : FS} (i : Inv h) (hd : a.dir = [])
    (hz : fs (directory cwd a ++ [a.base]) = some (.zip ((sheets h).map fun s => (a.dir ++ [s.1], s.2)))) :
    (fromZip cwd a fs).1 = .ok (readTables h) ∧ (∀ f ∈ tableFiles, (fromZip cwd a fs).2 (directory cwd a ++ [f]) = none) ∧
    ∀ q, (∀ f ∈ tableFiles, q ≠ directory cwd a ++ [f]) → (fromZip cwd a fs).2 q = fs q := by
  have hget : ∀ s ∈ sheets h, (((sheets h).map fun s => (a.dir ++ [s.1], s.2)).foldl
      (fun fs m => FS.set fs (directory cwd a ++ m.1) (.tsv m.2)) fs) (directory cwd a ++ [s.1]) = some (.tsv s.2) := by
    intro s hs
    rw [foldl_map, hd]
    have := foldl_set_mem (fun s : String × Tsv => directory cwd a ++ [s.1]) (fun s => .tsv s.2) (sheets h) ?_ fs s hs
    · simpa using this
    · have hn := tableFiles_nodup
      rw [← sheets_names h] at hn
      rw [show (fun s : String × Tsv => directory cwd a ++ [s.1]) = (fun f => directory cwd a ++ [f]) ∘ (·.1) from rfl, ← map_map]
      exact hn.map fun x y hxy => by simpa using hxy
  have hother : ∀ q, (∀ f ∈ tableFiles, q ≠ directory cwd a ++ [f]) → (((sheets h).map fun s => (a.dir ++ [s.1], s.2)).foldl
      (fun fs m => FS.set fs (directory cwd a ++ m.1) (.tsv m.2)) fs) q = fs q := by
    intro q hq
    rw [foldl_map, hd]
    have := foldl_set (fun s : String × Tsv => directory cwd a ++ [s.1]) (fun s => .tsv s.2) (sheets h) fs q
      fun s hs he => hq _ (sheet_mem h hs) he.symm
    simpa using this
  unfold fromZip
  simp only [hz]
  generalize (((sheets h).map fun s => (a.dir ++ [s.1], s.2)).foldl
      (fun fs m => FS.set fs (directory cwd a ++ m.1) (.tsv m.2)) fs) = fs1 at hget hother
  have hall : tableFiles.all (fun f => isTsv (fs1 (directory cwd a ++ [f]))) = true := by
    rw [all_eq_true]
    intro f hf
    rw [← sheets_names h, mem_map] at hf
    obtain ⟨s, hs, rfl⟩ := hf
    rw [hget s hs]
    rfl
  have ht : (fun f => if tableFiles.contains f = true then columns (fs1 (directory cwd a ++ [f])) else []) = readTables h := by
    funext f
    by_cases hf : f ∈ tableFiles
    · rw [if_pos (by simpa using hf)]
      rw [← sheets_names h, mem_map] at hf
      obtain ⟨s, hs, rfl⟩ := hf
      rw [hget s hs]
      unfold readTables
      rw [find_sheet h hs]
      rfl
    · rw [if_neg (by simpa using hf)]
      unfold readTables
      have : (sheets h).find? (fun s => s.1 = f) = none := by
        rw [find?_eq_none]
        intro s hs he
        simp only [decide_eq_true_eq] at he
        exact hf (he ▸ sheet_mem h hs)
      rw [this]
  rw [if_pos hall, ht, if_pos (checks_read i)]
  refine ⟨rfl, fun f hf => ?_, fun q hq => ?_⟩
  · exact foldl_remove_mem (fun f : String => directory cwd a ++ [f]) _ _ _ hf
  · simp only
    rw [foldl_remove (fun f : String => directory cwd a ++ [f]) _ _ _ fun f hf he => hq f hf he.symm, hother q hq]

theorem readTables_iff (h : Herd) : readTables h = asTables h ↔ HerdTexty h := by
  constructor
  · intro he
    have e1 := congrFun he "keys.tsv"
    have e2 := congrFun he "files.tsv"
    have e3 := congrFun he "entities.tsv"
    have e4 := congrFun he "objects.tsv"
    replace e1 : [readText h.keys] = [h.keys.map .str] := e1
    replace e2 : [readText h.files] = [h.files.map .str] := e2
    replace e3 : [readText (h.entities.map (·.1)), readText (h.entities.map (·.2))] =
      [(h.entities.map (·.1)).map .str, (h.entities.map (·.2)).map .str] := e3
    replace e4 : [_, readText (h.objects.map (·.oid)), readText (h.objects.map (·.otype)), readText (h.objects.map (·.path)),
        readText (h.objects.map (·.field))] = [_, (h.objects.map (·.oid)).map .str, (h.objects.map (·.otype)).map .str,
        (h.objects.map (·.path)).map .str, (h.objects.map (·.field)).map .str] := e4
    simp only [cons.injEq, and_true, readText_iff] at e1 e2 e3 e4
    exact ⟨e1, e2, e3.1, e3.2, e4.2.1, e4.2.2.1, e4.2.2.2.1, e4.2.2.2.2⟩
  · rintro ⟨h1, h2, h3, h4, h5, h6, h7, h8⟩
    rw [← readText_iff] at h1 h2 h3 h4 h5 h6 h7 h8
    funext f
    unfold readTables asTables
    cases hf : (sheets h).find? (fun s => s.1 = f) with
    | none => rfl
    | some s =>
      have hs := mem_of_find?_eq_some hf
      simp only [sheets, mem_cons, not_mem_nil, or_false] at hs
      rcases hs with rfl | rfl | rfl | rfl | rfl | rfl <;> simp only [map_cons, map_nil, readCol, *]

/-! ## Calls up to the first error -/

theorem runAll_ok : ∀ (l : List (Except Err Call)) (h h' : Herd), runAll h l = (h', .ok ()) →
    ∃ cs : List Call, l = cs.map .ok ∧ h' = run h cs ∧ ∀ (p : List Call) (c : Call) (s : List Call), cs = p ++ c :: s →
      (addRef (run h p) c).2 = .ok ()
  | [], h, h', hr => by
    simp only [runAll, Prod.mk.injEq, and_true] at hr
    subst hr
    exact ⟨[], rfl, rfl, fun p c s h => by simp at h⟩
  | .error e :: l, h, h', hr => by simp [runAll] at hr
  | .ok c :: l, h, h', hr => by
    unfold runAll at hr
    split at hr
    · simp at hr
    · rename_i h1 he
      obtain ⟨cs, rfl, hh, hc⟩ := runAll_ok l h1 h' hr
      refine ⟨c :: cs, rfl, ?_, fun p c' s hp => ?_⟩
      · rw [hh]; simp [run, he]
      · cases p with
        | nil =>
          simp only [nil_append, cons.injEq] at hp
          obtain ⟨rfl, rfl⟩ := hp
          simp [run, he]
        | cons x p =>
          simp only [cons_append, cons.injEq] at hp
          obtain ⟨rfl, rfl⟩ := hp
          have := hc p c' s rfl
          simpa [run, he] using this

theorem run_append (h : Herd) (cs ds : List Call) : run h (cs ++ ds) = run (run h cs) ds := by
  induction cs generalizing h with
  | nil => rfl
  | cons c cs ih => simp [run, ih]

theorem valid_str : ∀ (cs : List Call) (h : Herd), (∀ c ∈ cs, ∃ s, c.key = .str s) → Valid h cs
  | [], _, _ => trivial
  | c :: cs, h, hs => by
    refine ⟨fun k hk => ?_, valid_str cs _ fun d hd => hs d (by simp [hd])⟩
    obtain ⟨s, h'⟩ := hs c (by simp)
    rw [h'] at hk; cases hk

theorem valid_append : ∀ (cs ds : List Call) (h : Herd), Valid h cs → Valid (run h cs) ds → Valid h (cs ++ ds)
  | [], _, _, _, h => h
  | _ :: cs, ds, _, h1, h2 => ⟨h1.1, valid_append cs ds _ h1.2 h2⟩

end Verif.HerdZip
