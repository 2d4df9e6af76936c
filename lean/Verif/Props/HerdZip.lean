import Verif.Lemmas.HerdZip

/-! # Properties of external resources in zip files and of references from term sets -/

namespace Verif.HerdZip
open Verif Verif.Herd List

theorem accepted_sub (cs : List Call) : ∀ h, ∀ c ∈ accepted h cs, c ∈ cs := by
  induction cs with
  | nil => intro h c hc; cases hc
  | cons d ds ih =>
    intro h c hc
    unfold accepted at hc
    split at hc
    · rcases mem_cons.1 hc with rfl | hc
      · simp
      · exact mem_cons_of_mem _ (ih _ _ hc)
    · exact mem_cons_of_mem _ (ih _ _ hc)

/-! ## C204: what `to_zip` writes, `from_zip` reads -/

/-- For tables that came about by `add_ref`, and a path without a directory part (a name in the current directory, or in the root),
`from_zip` after `to_zip` gives the tables exactly if their text is read as it was written: no cell is one of the texts that pandas
takes for missing values, and in no column all the cells that are not empty are numbers, or truth values.  No table files are
left, and all other files are as before.  Missing: paths with a directory (`C204_directory_fails`), other texts
(`C205_text_fails`). -/
theorem C204_roundtrip_partial (cs : List Call) (hv : Valid {} cs) (cwd : Path) (a : Arg) (fs : FS) (hd : a.dir = [])
    (hb : a.base ∉ tableFiles) :
    ((fromZip cwd a (toZip cwd a (run {} cs) fs)).1 = .ok (asTables (run {} cs)) ↔ HerdTexty (run {} cs)) ∧
    (fromZip cwd a (toZip cwd a (run {} cs) fs)).1 ≠ .error .runtimeError ∧
    ∀ q, (∀ f ∈ tableFiles, q ≠ directory cwd a ++ [f]) → q ≠ directory cwd a ++ [a.base] →
      (fromZip cwd a (toZip cwd a (run {} cs) fs)).2 q = fs q := by
  have i := run_inv cs {} inv_empty hv
  obtain ⟨h1, _, h3⟩ := toZip_get cwd a (run {} cs) fs hb
  obtain ⟨g1, _, g3⟩ := fromZip_flat i hd h1
  refine ⟨?_, ?_, fun q hq hq' => ?_⟩
  · rw [g1, Except.ok.injEq, readTables_iff]
  · rw [g1]; simp
  · rw [g3 q hq, h3 q hq' hq]

/-- references whose text is read as it was written -/
def exCalls : List Call :=
  [{ file := some "f-1", target := .ok ("o-1", "VectorData", "description"), key := .str "Homo sapiens", eid := "NCBI:9606",
     uri := some "http://x" },
   { file := some "f-1", target := .ok ("o-2", "VectorData", ""), key := .str "", eid := "NCBI:10090", uri := some "" }]

example : HerdTexty (run {} exCalls) ∧ Valid {} exCalls := by
  refine ⟨?_, valid_str _ _ (by simp [exCalls])⟩
  unfold HerdTexty
  simp only [← readText_iff]
  decide +kernel

example : fromZip [] ⟨false, [], "h.zip"⟩ (fun _ => none) = (.error .valueError, fun _ => none) := rfl

/-- **C204 fails** for every path with a directory part: whatever the tables, `from_zip` does not find what `to_zip` wrote, since the
members of the zip file are named with the directory and are extracted below it; the extracted files stay. -/
theorem C204_directory_fails (h : Herd) (cwd : Path) (a : Arg) (fs : FS) (hd : a.dir ≠ []) (hb : a.base ∉ tableFiles) :
    (fromZip cwd a (toZip cwd a h fs)).1 = .error .runtimeError ∧
    ∀ s ∈ sheets h, (fromZip cwd a (toZip cwd a h fs)).2 (directory cwd a ++ (a.dir ++ [s.1])) = some (.tsv s.2) := by
  obtain ⟨h1, h2, h3⟩ := toZip_get cwd a h fs hb
  have hlen : ∀ f g : String, directory cwd a ++ (a.dir ++ [f]) ≠ directory cwd a ++ [g] := by
    intro f g he
    have := congrArg List.length he
    simp only [length_append, length_cons, length_nil] at this
    exact hd (List.length_eq_zero_iff.1 (by omega))
  unfold fromZip
  simp only [h1, foldl_map]
  have hk : isTsv (foldl (fun (fs : FS) (s : String × Tsv) => fs.set (directory cwd a ++ (a.dir ++ [s.1])) (.tsv s.2)) (toZip cwd a h fs) (sheets h)
      (directory cwd a ++ ["keys.tsv"])) = false := by
    rw [foldl_set (fun s : String × Tsv => directory cwd a ++ (a.dir ++ [s.1])) (fun s => .tsv s.2) _ _ _ fun s _ => hlen _ _,
      h2 _ (by simp [tableFiles])]
    rfl
  rw [if_neg]
  · refine ⟨rfl, fun s hs => ?_⟩
    simp only
    rw [foldl_remove (fun f : String => directory cwd a ++ [f]) _ _ _ fun f _ he => hlen _ _ he.symm]
    refine foldl_set_mem (fun s : String × Tsv => directory cwd a ++ (a.dir ++ [s.1])) (fun s => .tsv s.2) _ ?_ _ s hs
    have hn := tableFiles_nodup
    rw [← sheets_names h] at hn
    rw [show (fun s : String × Tsv => directory cwd a ++ (a.dir ++ [s.1])) = (fun f => directory cwd a ++ (a.dir ++ [f])) ∘ (·.1) from rfl,
      ← map_map]
    exact hn.map fun x y hxy => by simpa using hxy
  · intro hall
    rw [all_eq_true] at hall
    have := hall "keys.tsv" (by simp [tableFiles])
    rw [hk] at this
    cases this

example : (⟨true, ["home", "u"], "h.zip"⟩ : Arg).dir ≠ [] ∧ (⟨true, ["home", "u"], "h.zip"⟩ : Arg).base ∉ tableFiles := by
  decide +kernel

/-! ## C205: text survives -/

/-- A column of text is read back as it was written exactly if what pandas takes for missing is empty and, unless all cells are empty,
one cell is no number and one no truth value. -/
theorem C205_column_partial (l : List String) :
    readText l = l.map Cell.str ↔
      (∀ s ∈ l, isNA s = true → s = "") ∧
      ((∀ s ∈ l, s = "") ∨
        (∃ s ∈ l, isNA s = false ∧ parseInt s = none ∧ isFloat s = false) ∧ ∃ s ∈ l, isNA s = false ∧ parseBool s = none) :=
  readText_iff l

example : readText ["Homo sapiens", "", "12"] = [.str "Homo sapiens", .str "", .str "12"] := by decide +kernel

/-- **C205 fails.** The key "NA" is read as the empty string; keys "007" and "12" as the integers 7 and 12; "7" beside an empty key as a
float; "True" as a truth value.  So the key is not found any more under its name. -/
theorem C205_text_fails :
    readText ["NA", "mouse"] = [.str "", .str "mouse"] ∧ readText ["007", "12"] = [.int 7, .int 12] ∧
    readText ["7", ""] = [.float "7", .str ""] ∧ readText ["-5", "+4"] = [.int (-5), .int 4] ∧ readText ["True"] = [.bool true] ∧ readText ["1e3", "2.5"] = [.float "1e3", .float "2.5"] := by
  decide +kernel

/-- **C205 fails** for tables: one reference with the key "007", written to the current directory and read back, has the integer 7 as
its key. -/
theorem C205_key_fails : ∃ cs, Valid {} cs ∧ (run {} cs).keys = ["007"] ∧ ∀ cwd fs t,
    (fromZip cwd ⟨false, [], "h.zip"⟩ (toZip cwd ⟨false, [], "h.zip"⟩ (run {} cs) fs)).1 = .ok t → t "keys.tsv" = [[.int 7]] := by
  refine ⟨[{ file := some "f-1", target := .ok ("o-1", "T", ""), key := .str "007", eid := "e", uri := some "u" }],
    valid_str _ _ (by simp), by decide +kernel, fun cwd fs t ht => ?_⟩
  have i := run_inv [{ file := some "f-1", target := .ok ("o-1", "T", ""), key := .str "007", eid := "e", uri := some "u" }] {}
    inv_empty (valid_str _ _ (by simp))
  obtain ⟨h1, _⟩ := toZip_get cwd ⟨false, [], "h.zip"⟩ (run {} [{ file := some "f-1", target := .ok ("o-1", "T", ""), key := .str "007", eid := "e", uri := some "u" }])
    fs (by decide +kernel)
  rw [(fromZip_flat i rfl h1).1] at ht
  cases ht
  decide +kernel

/-! ## C206: `to_zip` writes the zip file and leaves other files alone -/

/-- The zip file holds the six tables, and files other than the six tables are not touched.  Missing: files of the user with the names
of the tables (`C206_removed_fails`). -/
theorem C206_others_partial (cwd : Path) (a : Arg) (h : Herd) (fs : FS) (hb : a.base ∉ tableFiles) (d : Path)
    (hd : d = if a.abs then a.dir else cwd ++ a.dir) :
    (∃ ms, toZip cwd a h fs (d ++ [a.base]) = some (.zip ms) ∧ ms.map (·.2) = (sheets h).map (·.2)) ∧
    ∀ q, q ≠ d ++ [a.base] → (∀ f ∈ tableFiles, q ≠ d ++ [f]) → toZip cwd a h fs q = fs q := by
  obtain rfl : directory cwd a = d := hd.symm
  obtain ⟨h1, _, h3⟩ := toZip_get cwd a h fs hb
  exact ⟨⟨_, h1, by simp [Function.comp_def]⟩, h3⟩

example : (⟨false, [], "h.zip"⟩ : Arg).base ∉ tableFiles := by decide +kernel

/-- **C206 fails.** Whatever files named like the tables were in the directory are gone. -/
theorem C206_removed_fails (cwd : Path) (a : Arg) (h : Herd) (fs : FS) (hb : a.base ∉ tableFiles) (f : String) (hf : f ∈ tableFiles) :
    toZip cwd a h fs (directory cwd a ++ [f]) = none :=
  (toZip_get cwd a h fs hb).2.1 f hf

example : ∃ fs : FS, fs ["home", "keys.tsv"] = some (.other "mine") ∧ "keys.tsv" ∈ tableFiles ∧
    toZip ["home"] ⟨false, [], "h.zip"⟩ {} fs ["home", "keys.tsv"] = none :=
  ⟨fun _ => some (.other "mine"), rfl, by decide +kernel, by decide +kernel⟩

/-! ## C207: `assert_external_resources_equal` -/

/-- It passes exactly if the five tables that it compares are equal. -/
theorem C207_equal_partial (l r : Herd) : differences l r = [] ↔
    l.keys = r.keys ∧ l.files = r.files ∧ l.objects = r.objects ∧ l.entities = r.entities ∧ l.objectKeys = r.objectKeys := by
  unfold differences
  constructor
  · intro h
    simp only [append_eq_nil_iff] at h
    obtain ⟨⟨⟨⟨h1, h2⟩, h3⟩, h4⟩, h5⟩ := h
    refine ⟨?_, ?_, ?_, ?_, ?_⟩ <;> by_contra hc <;> simp_all
  · rintro ⟨h1, h2, h3, h4, h5⟩
    simp [h1, h2, h3, h4, h5]

example : differences (run {} exCalls) (run {} exCalls) = [] ∧ differences (run {} exCalls) {} ≠ [] := by decide +kernel

/-- **C207 fails.** The entity-key table is not compared: two histories of `add_ref` after which the same key stands for different
entities are found equal. -/
theorem C207_entity_keys_fails : ∃ cs ds, Valid {} cs ∧ Valid {} ds ∧ differences (run {} cs) (run {} ds) = [] ∧
    Retrievable (run {} cs) "o" "" "" "x" "e2" ∧ ¬ Retrievable (run {} ds) "o" "" "" "x" "e2" := by
  let a (k e : String) (u : Option String) : Call := { file := some "f", target := .ok ("o", "T", ""), key := .str k, eid := e, uri := u }
  refine ⟨[a "x" "e1" (some "u"), a "y" "e2" (some "u"), a "x" "e2" none], [a "x" "e1" (some "u"), a "y" "e2" (some "u"), a "x" "e1" none],
    valid_str _ _ (by simp [a]), valid_str _ _ (by simp [a]), by decide +kernel, ?_, ?_⟩
  · refine ⟨0, 0, 1, ⟨0, "o", "T", "", ""⟩, "u", ?_⟩
    decide +kernel
  · rw [C30_exact _ (by simp [a])]
    rintro ⟨c, hc, ot, -, -, h3, h4⟩
    have hm : c ∈ [a "x" "e1" (some "u"), a "y" "e2" (some "u"), a "x" "e1" none] := accepted_sub _ _ c hc
    simp only [mem_cons, not_mem_nil, or_false] at hm
    rcases hm with rfl | rfl | rfl <;> simp [a] at h3 h4

/-! ## C208: `add_ref_container` -/

/-- If `add_ref_container` ends without an error then every term of every wrapped attribute can be retrieved from its object with the
entity of the term set, and what was there before still can.  Missing: that an error leaves the tables as they were
(`C208_atomic_fails`). -/
theorem C208_recorded_partial (cs : List Call) (hv : Valid {} cs) (root : String) (items : List Item) (h' : Herd)
    (hr : addRefContainer (run {} cs) root items = (h', .ok ())) :
    (∀ i ∈ items, ∀ oid otype path, i.target = .ok (oid, otype, path) → ∀ t ∈ i.terms, ∃ id uri, i.termset t = .ok (id, uri) ∧
      Retrievable h' oid path "" t id) ∧
    ∀ oid path field name eid, Retrievable (run {} cs) oid path field name eid → Retrievable h' oid path field name eid := by
  obtain ⟨ds, hl, rfl, hok⟩ := runAll_ok _ _ _ hr
  have hkey : ∀ d ∈ ds, ∃ s, d.key = .str s := by
    intro d hd
    have : Except.ok d ∈ items.flatMap (itemCalls root) := by rw [hl]; exact mem_map_of_mem hd
    obtain ⟨i, _, hi⟩ := mem_flatMap.1 this
    obtain ⟨t, _, ht⟩ := mem_map.1 hi
    split at ht
    · cases ht
    · cases ht; exact ⟨t, rfl⟩
  refine ⟨fun i hi oid otype path ht t htm => ?_, fun oid path field name eid h => C30_kept _ ds _ _ _ _ _ h⟩
  have hm : (match i.termset t with
      | .error e => .error e
      | .ok (id, uri) => .ok { file := some root, target := i.target, key := .str t, eid := id, uri := some uri } : Except Err Call) ∈
      items.flatMap (itemCalls root) := mem_flatMap.2 ⟨i, hi, mem_map.2 ⟨t, htm, rfl⟩⟩
  rw [hl] at hm
  cases hts : i.termset t with
  | error e => rw [hts] at hm; simp at hm
  | ok p =>
    obtain ⟨id, uri⟩ := p
    rw [hts] at hm
    simp only [mem_map, Except.ok.injEq] at hm
    obtain ⟨c, hc, rfl⟩ := hm
    obtain ⟨p, s, hps⟩ := append_of_mem hc
    refine ⟨id, uri, rfl, ?_⟩
    have hacc := hok p _ s hps
    rw [← run_append] at hacc
    have hv' : Valid {} (cs ++ p) := valid_append _ _ _ hv (valid_str _ _ fun d hd => hkey d (by rw [hps]; simp [hd]))
    have := C30_recorded (cs ++ p) hv' { file := some root, target := i.target, key := .str t, eid := id, uri := some uri }
      (addRef (run {} (cs ++ p)) { file := some root, target := i.target, key := .str t, eid := id, uri := some uri }).1
      oid otype path t (Prod.ext rfl hacc) ht (.inl rfl)
    rw [hps, run_append]
    simp only [run]
    rw [← run_append]
    exact C30_kept _ s _ _ _ _ _ this

/-- On empty tables, nothing else is recorded: what can be retrieved afterwards are terms of wrapped attributes with their entities. -/
theorem C208_only (root : String) (items : List Item) (h' : Herd) (hr : addRefContainer {} root items = (h', .ok ()))
    (oid path field name eid : String) (h : Retrievable h' oid path field name eid) :
    field = "" ∧ ∃ i ∈ items, ∃ otype uri, i.target = .ok (oid, otype, path) ∧ name ∈ i.terms ∧ i.termset name = .ok (eid, uri) := by
  obtain ⟨ds, hl, rfl, -⟩ := runAll_ok _ _ _ hr
  have hform : ∀ d ∈ ds, ∃ i ∈ items, ∃ t ∈ i.terms, ∃ id uri, i.termset t = .ok (id, uri) ∧
      d = { file := some root, target := i.target, key := .str t, eid := id, uri := some uri } := by
    intro d hd
    have : Except.ok d ∈ items.flatMap (itemCalls root) := by rw [hl]; exact mem_map_of_mem hd
    obtain ⟨i, hi, hi'⟩ := mem_flatMap.1 this
    obtain ⟨t, htm, ht⟩ := mem_map.1 hi'
    split at ht
    · cases ht
    · rename_i id uri hts
      cases ht; exact ⟨i, hi, t, htm, id, uri, hts, rfl⟩
  rw [C30_exact _ (fun d hd => by obtain ⟨i, -, t, -, id, uri, -, rfl⟩ := hform d hd; exact ⟨t, rfl⟩)] at h
  obtain ⟨c, hc, ot, h1, h2, h3, h4⟩ := h
  obtain ⟨i, hi, t, ht, id, uri, hts, rfl⟩ := hform c (accepted_sub _ _ c hc)
  simp only at h1 h2 h3 h4
  cases h3
  subst h4
  exact ⟨h2.symm, i, hi, ot, uri, h1, ht, hts⟩

/-- two wrapped attributes -/
def exItems : List Item :=
  [⟨.ok ("o-1", "VectorData", ""), ["Homo sapiens", "Mus musculus"], fun t => if t = "Homo sapiens" then .ok ("NCBI:9606", "u1")
    else if t = "Mus musculus" then .ok ("NCBI:10090", "u2") else .error .valueError⟩,
   ⟨.ok ("o-2", "Subject", "species"), ["Homo sapiens"], fun _ => .ok ("NCBI:9606", "u1")⟩]

example : (addRefContainer {} "f" exItems).2 = .ok () ∧ (addRefContainer {} "f" exItems).1.keys = ["Homo sapiens", "Mus musculus", "Homo sapiens"] := by
  decide +kernel

/-- **C208 fails** to be all or nothing: when a term is not in its term set, the terms before it have been recorded. -/
theorem C208_atomic_fails : ∃ items h', addRefContainer {} "f" items = (h', .error .valueError) ∧ h'.keys = ["Homo sapiens"] :=
  ⟨[⟨.ok ("o-1", "VectorData", ""), ["Homo sapiens", "Canis"], fun t => if t = "Homo sapiens" then .ok ("NCBI:9606", "u1")
    else .error .valueError⟩], _, Prod.ext rfl (by decide +kernel), by decide +kernel⟩

/-! ## C209: `get_object_type` -/

/-- In every reachable state with a reference, `get_object_type` gives exactly what is retrievable from objects of the type: of all of
them, or of those with the given path and field. -/
theorem C209_object_type_partial (cs : List Call) (hv : Valid {} cs) (hne : (run {} cs).objectKeys ≠ []) (otype path field : String)
    (all : Bool) :
    ∃ rows, getObjectType (run {} cs) otype path field all = .ok rows ∧
      ∀ oid p f name eid, (∃ r ∈ rows, r.obj.oid = oid ∧ r.obj.path = p ∧ r.obj.field = f ∧ r.key = name ∧ r.entity.1 = eid) ↔
        Retrievable (run {} cs) oid p f name eid ∧ (∃ ob ∈ (run {} cs).objects, ob.oid = oid ∧ ob.path = p ∧ ob.field = f ∧ ob.otype = otype) ∧
          (all = true ∨ p = path ∧ f = field) := by
  have i := run_inv cs {} inv_empty hv
  obtain ⟨rows, h1, h2, h3, -⟩ := C76_flat cs hv hne
  refine ⟨_, by unfold getObjectType; rw [h1], fun oid p f name eid => ?_⟩
  constructor
  · rintro ⟨r, hr, e1, e2, e3, e4, e5⟩
    rw [mem_filter] at hr
    obtain ⟨hr, hp⟩ := hr
    refine ⟨(h2 _ _ _ _ _).1 ⟨r, hr, e1, e2, e3, e4, e5⟩, ⟨r.obj, List.mem_of_getElem? (h3 r hr).2.1, e1, e2, e3, ?_⟩, ?_⟩
    · split at hp
      · simpa using hp
      · simp only [Bool.and_eq_true, beq_iff_eq] at hp; exact hp.1.1
    · split at hp
      · left; assumption
      · simp only [Bool.and_eq_true, beq_iff_eq] at hp
        right; exact ⟨e2 ▸ hp.1.2, e3 ▸ hp.2⟩
  · rintro ⟨hr, ⟨ob, hob, o1, o2, o3, o4⟩, hsel⟩
    obtain ⟨r, hr, e1, e2, e3, e4, e5⟩ := (h2 _ _ _ _ _).2 hr
    have hobj : r.obj = ob := by
      have := List.inj_on_of_nodup_map i.objU (List.mem_of_getElem? (h3 r hr).2.1) hob
      exact this (by simp [Obj.id, e1, e2, e3, o1, o2, o3])
    refine ⟨r, mem_filter.2 ⟨hr, ?_⟩, e1, e2, e3, e4, e5⟩
    rw [hobj]
    rcases hsel with rfl | ⟨rfl, rfl⟩
    · simp [o4]
    · cases all <;> simp [o2, o3, o4]

example : (getObjectType (run {} exCalls) "VectorData" "" "" false).toOption.map (fun rs => rs.map fun r => (r.obj.oid, r.key)) = some [("o-2", "")] ∧
    (run {} exCalls).objectKeys ≠ [] := by decide +kernel

/-- **C209 fails** on tables without references: a ValueError instead of an empty result. -/
theorem C209_empty_fails (otype path field : String) (all : Bool) : getObjectType {} otype path field all = .error .valueError := rfl

end Verif.HerdZip
