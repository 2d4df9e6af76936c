import Verif.Lemmas.Table

/-!
# Properties of `DynamicTable`: column lengths, reading rows back, rejected operations
-/

namespace Verif.Table
open Verif Verif.Ragged

/-- **C14.** In a table built without data, after any history of successful `add_row` and `add_column` calls, column names
are distinct and every column, of any kind, has as many entries as the table has rows (ids). -/
theorem C14_columns_aligned (initial specs : List (String × Nat)) (hn : (initial.map Prod.fst).Nodup) (ops : List Op)
    (s : State) (h : runOk (fresh initial specs) ops = some s) :
    s.colnames.Nodup ∧ ∀ c ∈ s.cols, c.len = s.len := by
  have := runOk_inv ops _ _ h (fresh_inv hn)
  exact ⟨this.nodup, this.len⟩

/-- The same for a table in any aligned state, e.g. one built from given columns. -/
theorem C14_preserved (s s' : State) (ops : List Op) (hn : s.colnames.Nodup) (hl : ∀ c ∈ s.cols, c.len = s.len)
    (h : runOk s ops = some s') : s'.colnames.Nodup ∧ ∀ c ∈ s'.cols, c.len = s'.len := by
  have := runOk_inv ops _ _ h ⟨hn, hl⟩
  exact ⟨this.nodup, this.len⟩

/-- Two rows into a table with a plain and a doubly ragged column, an optional column appearing with the first row, then a
new ragged column of two rows. -/
def demoOps : List Op :=
  [.addRow [("a", .atom 1), ("b", .list [.list [.atom 5, .atom 6], .list []]), ("c", .list [.atom 7])] none false,
   .addRow [("c", .list []), ("b", .list []), ("a", .atom 2)] (some 9) true,
   .addColumn "d" [.list [.atom 1, .atom 2], .list []] (.levels 1)]

def demo : State := fresh [("a", 0), ("b", 2)] [("a", 0), ("b", 2), ("c", 1)]

example : (runOk demo demoOps).map (fun s => (s.ids, s.colnames, s.cols.map Column.len)) =
    some ([0, 9], ["a", "b", "c", "d"], [2, 2, 2, 2]) := by decide +kernel
example : (runOk demo demoOps).map (fun s => s.row 0) =
    some (.ok (0, [("a", .atom 1), ("b", .list [.list [.atom 5, .atom 6], .list []]), ("c", .list [.atom 7]),
        ("d", .list [.atom 1, .atom 2])])) := by decide +kernel
example : (runOk demo demoOps).map (fun s => s.row 1) =
    some (.ok (9, [("a", .atom 2), ("b", .list []), ("c", .list []), ("d", .list [])])) := by decide +kernel

/-- **C14 fails** once a rejected call is caught: `add_row` with a non-list for a ragged column leaves the id and the
earlier columns longer than the ragged one. -/
theorem C14_after_rejection_fails :
    ∃ (s : State) (data : Dict String Value) (s' : State) (e : Err), (s.colnames.Nodup ∧ ∀ c ∈ s.cols, c.len = s.len) ∧
      addRow s data none false = (s', .error e) ∧ ∃ c ∈ s'.cols, c.len ≠ s'.len := by
  refine ⟨fresh [("a", 0), ("b", 1)] [], [("a", .atom 1), ("b", .atom 2)], _, .typeError, ?_, rfl, ?_⟩
  · have := fresh_inv (initial := [("a", 0), ("b", 1)]) (specs := []) (by decide +kernel)
    exact ⟨this.nodup, this.len⟩
  · exact ⟨_, List.mem_cons_of_mem _ List.mem_cons_self, by decide +kernel⟩

/-- **C15.** Take any history of successful calls, an `add_row`, and any further history of successful calls.  In the final
table the row added by that call (at the position `len(table)` it had before the call) has the id given (or the number of
rows before, by default), and holds for every column existing at that time exactly the value passed, whatever came later;
`table[i, name]` and `table[i]` agree.  Assumption: no column holds 2^64 or more values; `index` arrays passed to
`add_column` describe the data. -/
theorem C15_rows_read_back (initial specs : List (String × Nat)) (hn : (initial.map Prod.fst).Nodup)
    (before after : List Op) (data : Dict String Value) (id : Option Int) (u : Bool) (s1 s2 s : State)
    (h1 : runOk (fresh initial specs) before = some s1) (h2 : addRow s1 data id u = (s2, .ok ()))
    (h3 : runOk s2 after = some s)
    (hv : ∀ op ∈ before ++ after, op.Valid) (hs : ∀ c ∈ s.cols, c.total < 2 ^ 64) :
    s2.len = s1.len + 1 ∧
    (∀ name ∈ s1.colnames, name ∈ s2.colnames) ∧
    ∃ vs, s.row s1.len = .ok (id.getD s1.len, vs) ∧ vs.map Prod.fst = s.colnames ∧
      ∀ name ∈ s2.colnames, ∃ v, Dict.get? data name = some v ∧ (name, v) ∈ vs ∧ s.cell s1.len name = .ok v := by
  have hi1 := runOk_inv before _ _ h1 (fresh_inv hn)
  have hi2 := addRow_inv h2 hi1
  have hi := runOk_inv after _ _ h3 hi2
  have hs2 : Small s2 := runOk_small after _ _ h3 hs
  have hs1 : Small s1 := addRow_small h2 hs2
  obtain ⟨-, hg1, -⟩ := runOk_grows before _ _ h1 (fun o ho => hv o (by simp [ho])) (fresh_good _ _) hs1
  obtain ⟨hg2, hgr2, hlast⟩ := addRow_grows h2 hg1 hs2
  obtain ⟨-, hg, hgr⟩ := runOk_grows after _ _ h3 (fun o ho => hv o (by simp [ho])) hg2 hs
  obtain ⟨-, -, -, -, -, -, hids, -, -⟩ := addRow_ok h2
  have hlen2 : s2.len = s1.len + 1 := by simp [State.len, hids]
  have hlt : s1.ids.length < s.ids.length := by
    have := hgr.ids.length_le
    simp only [State.len] at hlen2; omega
  obtain ⟨tl, htl⟩ := hgr.ids
  have hidget : pyGet s.ids (s1.ids.length : Int) = .ok (id.getD s1.ids.length) := by
    have : s.ids[s1.ids.length]? = some (id.getD s1.ids.length) := by rw [← htl, hids]; simp
    rw [pyGet_nat, this]
  have hall : ∀ c ∈ s.cols, ∃ v, c.get (s1.ids.length : Int) = .ok v := by
    intro c hc
    have hl : c.vals.length = s.ids.length := by rw [Column.length_vals]; exact hi.len c hc
    exact ⟨_, Column.get_vals c s1.ids.length (c.vals[s1.ids.length]'(by omega)) (List.getElem?_eq_getElem _)⟩
  obtain ⟨vs, r1, r2, r3⟩ := rowCells_ok (s1.ids.length : Int) s.cols hall
  refine ⟨hlen2, ?_, vs, ?_, r2, ?_⟩
  · intro name hname
    obtain ⟨c, hc, rfl⟩ := List.mem_map.1 hname
    obtain ⟨c', hc', hn', -⟩ := hgr2.cols c hc
    exact List.mem_map.2 ⟨c', hc', hn'⟩
  · simp only [State.row, State.len, hidget, r1]
  · intro name hname
    obtain ⟨c2, hc2, rfl⟩ := List.mem_map.1 hname
    obtain ⟨v, hd, old, hold⟩ := hlast c2 hc2
    obtain ⟨c, hc, hcn, hpre⟩ := hgr.cols c2 hc2
    have hl2 : c2.vals.length = s2.ids.length := by rw [Column.length_vals]; exact hi2.len c2 hc2
    have hget : c.vals[s1.ids.length]? = some v := by
      obtain ⟨t, ht⟩ := hpre
      have : old.length = s1.ids.length := by
        rw [hold] at hl2; simp only [State.len] at hlen2; simp at hl2; omega
      rw [← ht, hold, ← this]; simp
    have hg := Column.get_vals c _ v hget
    refine ⟨v, hd, ?_, ?_⟩
    · rw [← hcn]; exact r3 c hc v hg
    · rw [← hcn]; simp only [State.len]; rw [cell_eq hi hc]; exact hg

/-- **C15 (columns added later).** The data given to `add_column` is what its cells hold, after any further history. -/
theorem C15_columns_read_back (initial specs : List (String × Nat)) (hn : (initial.map Prod.fst).Nodup)
    (before after : List Op) (name : String) (data : List Value) (ix : IndexArg) (s1 s2 s : State)
    (h1 : runOk (fresh initial specs) before = some s1) (h2 : addColumn s1 name data ix = (s2, .ok ()))
    (h3 : runOk s2 after = some s) (hix : ∀ l, ix ≠ .ends l)
    (hv : ∀ op ∈ before ++ after, op.Valid) (hs : ∀ c ∈ s.cols, c.total < 2 ^ 64) :
    data.length = s1.len ∧ ∀ (i : Nat) (v : Value), data[i]? = some v → s.cell i name = .ok v := by
  have hi1 := runOk_inv before _ _ h1 (fresh_inv hn)
  have hi2 := addColumn_inv h2 hi1
  have hi := runOk_inv after _ _ h3 hi2
  have hs2 : Small s2 := runOk_small after _ _ h3 hs
  have hs1 : Small s1 := addColumn_small h2 hs2
  have hvx : ix.Valid data := by cases ix <;> first | trivial | exact absurd rfl (hix _)
  obtain ⟨-, hg1, -⟩ := runOk_grows before _ _ h1 (fun o ho => hv o (by simp [ho])) (fresh_good _ _) hs1
  obtain ⟨hg2, -⟩ := addColumn_grows h2 hvx hg1 hs2
  obtain ⟨-, hg, hgr⟩ := runOk_grows after _ _ h3 (fun o ho => hv o (by simp [ho])) hg2 hs
  obtain ⟨c2, hm, -, hl, -, hcols, -⟩ := addColumn_ok h2
  have hmem : c2 ∈ s2.cols := by rw [hcols]; simp
  have hvals := (makeCol_good hm hvx (hs2 c2 hmem)).2 hix
  obtain ⟨c, hc, hcn, hpre⟩ := hgr.cols c2 hmem
  refine ⟨by rw [← hvals, Column.length_vals]; exact hl, fun i v hv => ?_⟩
  have hname := makeCol_name hm
  have hget : c.vals[i]? = some v := by
    obtain ⟨t, ht⟩ := hpre
    rw [← ht, hvals, List.getElem?_append_left (List.getElem?_eq_some_iff.1 hv).1, hv]
  rw [← hname, ← hcn, cell_eq hi hc]
  exact Column.get_vals c i v hget

/-- the errors of `add_row` that are raised before anything is written: missing keys, extra keys that are not predefined
columns, an id already present -/
theorem addRow_rejected_aux {s : State} {data : Dict String Value}
    (hspec : ∀ n ∈ data.keys, n ∉ s.colnames → ∀ p ∈ s.specs, p.1 = n → Dict.get? data n = some .null) :
    ∀ (specs : List (String × Nat)), (∀ p ∈ specs, p ∈ s.specs) → ∀ extra, (∀ n ∈ extra, n ∈ data.keys ∧ n ∉ s.colnames) →
      ∃ r, addExtras data specs s extra = (s, .ok r) ∧
        ∀ n, n ∈ r ↔ n ∈ extra ∧ ∀ p ∈ specs, p.1 ≠ n := by
  intro specs
  induction specs with
  | nil => intro _ extra _; exact ⟨extra, rfl, by simp⟩
  | cons p specs ih =>
    intro hsub extra hex
    obtain ⟨n, d⟩ := p
    simp only [addExtras]
    by_cases hm : n ∈ extra
    · rw [if_pos hm]
      have hnull := hspec n (hex n hm).1 (hex n hm).2 (n, d) (hsub _ (by simp)) rfl
      rw [hnull]
      obtain ⟨r, h1, h2⟩ := ih (fun p hp => hsub p (by simp [hp])) (extra.filter (· ≠ n))
        (fun m hm => hex m (List.mem_of_mem_filter hm))
      refine ⟨r, h1, fun m => ?_⟩
      rw [h2]
      simp only [List.mem_filter, ne_eq, decide_not, Bool.not_eq_eq_eq_not, Bool.not_true, decide_eq_false_iff_not,
        List.mem_cons, forall_eq_or_imp]
      constructor
      · rintro ⟨⟨a, b⟩, c⟩; exact ⟨a, fun h => b h.symm, c⟩
      · rintro ⟨a, b, c⟩; exact ⟨⟨a, fun h => b h.symm⟩, c⟩
    · rw [if_neg hm]
      obtain ⟨r, h1, h2⟩ := ih (fun p hp => hsub p (by simp [hp])) extra hex
      refine ⟨r, h1, fun m => ?_⟩
      rw [h2]
      simp only [List.mem_cons, forall_eq_or_imp, ne_eq]
      constructor
      · rintro ⟨a, b⟩; exact ⟨a, fun h => hm (h ▸ a), b⟩
      · rintro ⟨a, b, c⟩; exact ⟨a, c⟩

/-- **C16 (what holds).** A row is rejected with the whole table unchanged if a column is missing; and, when the row does
not bring in a predefined column for the first time, also if it has a key that is no column, or repeats an id under
`enforce_unique_id`. -/
theorem C16_rejected_unchanged_partial (s : State) (data : Dict String Value) (id : Option Int) (u : Bool) :
    ((∃ n ∈ s.colnames, Dict.has data n = false) → addRow s data id u = (s, .error .valueError)) ∧
    ((∀ n ∈ data.keys, n ∉ s.colnames → ∀ p ∈ s.specs, p.1 = n → Dict.get? data n = some .null) →
      ((∃ n ∈ data.keys, n ∉ s.colnames ∧ ∀ p ∈ s.specs, p.1 ≠ n) ∨ (u = true ∧ id.getD s.len ∈ s.ids)) →
      addRow s data id u = (s, .error .valueError)) := by
  constructor
  · rintro ⟨n, hn, hd⟩
    unfold addRow
    rw [if_pos]
    rw [List.any_eq_true]
    exact ⟨n, hn, by simp [hd]⟩
  · intro hspec hbad
    unfold addRow
    split
    · rfl
    · obtain ⟨r, h1, h2⟩ := addRow_rejected_aux hspec s.specs (fun p hp => hp)
        (data.keys.filter (· ∉ s.colnames)) (fun n hn => by simpa using hn)
      simp only [h1]
      cases r with
      | cons x r => rfl
      | nil =>
        simp only
        rcases hbad with ⟨n, hn, hc, hp⟩ | ⟨hu, hid⟩
        · exact absurd ((h2 n).2 ⟨by simpa using ⟨hn, hc⟩, hp⟩) (by simp)
        · rw [if_pos ⟨hu, hid⟩]

/-- non-vacuity: a table with one row; a row with an unknown key, and a row repeating the id -/
def demo1 : State := (runOk (fresh [("a", 0)] []) [.addRow [("a", .atom 1)] (some 4) false]).getD (fresh [] [])

example : demo1.ids = [4] ∧ demo1.colnames = ["a"] := by decide +kernel
example : (addRow demo1 [("a", .atom 1), ("z", .null)] none false).2 = .error .valueError ∧
    (addRow demo1 [("a", .atom 1)] (some 4) true).2 = .error .valueError ∧
    (addRow demo1 [("a", .atom 1)] (some 4) false).2 = .ok () := by decide +kernel

/-- **C16 fails** in general: (1) a value that a ragged column cannot take is discovered after the id and the values of
earlier columns have been appended; (2) an optional predefined column is created before the row is rejected for another,
unknown key. -/
theorem C16_fails :
    (∃ (s : State) (data : Dict String Value), Inv s ∧ (addRow s data none false).2 = .error .typeError ∧
      (addRow s data none false).1.len = s.len + 1) ∧
    (∃ (s : State) (data : Dict String Value), Inv s ∧ (addRow s data none false).2 = .error .valueError ∧
      (addRow s data none false).1.colnames ≠ s.colnames) :=
  ⟨⟨fresh [("a", 0), ("b", 1)] [], [("a", .atom 1), ("b", .atom 2)], fresh_inv (by decide +kernel), rfl, rfl⟩,
   ⟨fresh [] [("c", 0)], [("c", .atom 1), ("z", .atom 2)], fresh_inv (by decide +kernel), by decide +kernel,
    by decide +kernel⟩⟩

/-- **C17 (rejection).** A column with an existing name or the wrong number of rows is rejected; whatever the reason of a
rejection, ids and columns are unchanged. -/
theorem C17_rejected (s : State) (name : String) (data : List Value) (ix : IndexArg) :
    (name ∈ s.colnames → addColumn s name data ix = (s, .error .valueError)) ∧
    (ix.rowCount data ≠ s.len → ∃ e, (addColumn s name data ix).2 = .error e) ∧
    (∀ e, (addColumn s name data ix).2 = .error e →
      (addColumn s name data ix).1.ids = s.ids ∧ (addColumn s name data ix).1.cols = s.cols) := by
  refine ⟨fun h => by unfold addColumn; rw [if_pos h], fun h => ?_, fun e => ?_⟩
  · cases hr : addColumn s name data ix with
    | mk s' r =>
      cases r with
      | error e => exact ⟨e, rfl⟩
      | ok u =>
        obtain ⟨c, hm, -, hl, -⟩ := addColumn_ok hr
        rw [makeCol_len hm] at hl
        exact absurd hl h
  · unfold addColumn
    split
    · intro _; exact ⟨rfl, rfl⟩
    · split
      · intro _; split <;> exact ⟨rfl, rfl⟩
      · simp only
        split
        · intro _; exact ⟨rfl, rfl⟩
        · intro h; simp at h

/-- **C17 (acceptance).** An accepted column is last, has the given name, one entry per row; ids and the other columns are
untouched; and it holds the given data (for a plain column or nested lists with `index=True`/an integer). -/
theorem C17_accepted (s s' : State) (name : String) (data : List Value) (ix : IndexArg)
    (h : addColumn s name data ix = (s', .ok ())) :
    s'.ids = s.ids ∧ ∃ c, s'.cols = s.cols ++ [c] ∧ s'.colnames = s.colnames ++ [name] ∧ c.len = s.len ∧
      ((∀ l, ix ≠ .ends l) → c.total < 2 ^ 64 → ∀ (i : Nat) v, data[i]? = some v → c.get i = .ok v) := by
  obtain ⟨c, hm, hn, hl, h1, h2, -⟩ := addColumn_ok h
  refine ⟨h1, c, h2, ?_, hl, fun hix ht i v hv => ?_⟩
  · simp [State.colnames, h2, makeCol_name hm]
  · have hvx : ix.Valid data := by cases ix <;> first | trivial | exact absurd rfl (hix _)
    apply Column.get_vals
    rw [(makeCol_good hm hvx ht).2 hix]; exact hv

example : (addColumn demo1 "d" [.list [.list [.atom 1], .list []]] (.levels 2)).2 = .ok () ∧
    (addColumn demo1 "d" [.atom 1, .atom 2] .none).2 = .error .valueError ∧
    (addColumn demo1 "a" [.atom 1] .none).2 = .error .valueError := by decide +kernel

/-- A rejected `add_column` nevertheless leaves its column and index objects attached to the table as children and
registered as indices. -/
theorem C17_rejected_children_fails :
    ∃ (s : State) (name : String) (data : List Value) (ix : IndexArg), Inv s ∧
      (addColumn s name data ix).2 = .error .valueError ∧ (addColumn s name data ix).1.children ≠ s.children ∧
      (addColumn s name data ix).1.indices ≠ s.indices :=
  ⟨fresh [("a", 0)] [], "d", [.list [.atom 1]], .levels 1, fresh_inv (by decide +kernel), by decide +kernel,
    by decide +kernel, by decide +kernel⟩

/-- ids after a history -/
theorem runOk_ids_nodup : ∀ (ops : List Op) (s s' : State), runOk s ops = some s' → s.ids.Nodup →
    (∀ d i u, Op.addRow d i u ∈ ops → u = true) → s'.ids.Nodup := by
  intro ops
  induction ops with
  | nil => intro s s' h hn _; simp [runOk] at h; subst h; exact hn
  | cons op ops ih =>
    intro s s' h hn hu
    simp only [runOk] at h
    cases hs : step s op with
    | mk s1 r =>
      rw [hs] at h
      cases r with
      | error e => simp at h
      | ok x =>
        refine ih s1 s' h ?_ (fun d i u hm => hu d i u (by simp [hm]))
        cases op with
        | addRow d i u =>
          have := hu d i u (by simp)
          obtain ⟨-, -, -, -, -, -, h5, h6, -⟩ := addRow_ok hs
          rw [h5, List.nodup_append]
          exact ⟨hn, by simp, fun a ha b hb => by
            rw [List.mem_singleton] at hb; subst hb; exact fun e => h6 this (e ▸ ha)⟩
        | addColumn n d ix =>
          obtain ⟨-, -, -, -, h1, -, -⟩ := addColumn_ok hs
          rw [h1]; exact hn

/-- **C68 (unique ids).** If every row is added with `enforce_unique_id`, ids stay distinct. -/
theorem C68_unique_ids (initial specs : List (String × Nat)) (ops : List Op) (s : State)
    (h : runOk (fresh initial specs) ops = some s) (hu : ∀ d i u, Op.addRow d i u ∈ ops → u = true) : s.ids.Nodup :=
  runOk_ids_nodup ops _ _ h (by simp [fresh]) hu

/-- **C68 (automatic ids).** If no id is ever given, the ids are 0, 1, 2, ... in order. -/
theorem C68_auto_ids (initial specs : List (String × Nat)) (ops : List Op) (s : State)
    (h : runOk (fresh initial specs) ops = some s) (hu : ∀ d i u, Op.addRow d i u ∈ ops → i = none) :
    s.ids = (List.range s.len).map Int.ofNat := by
  have key : ∀ (ops : List Op) (s s' : State), runOk s ops = some s' →
      s.ids = (List.range s.ids.length).map Int.ofNat →
      (∀ d i u, Op.addRow d i u ∈ ops → i = none) → s'.ids = (List.range s'.ids.length).map Int.ofNat := by
    intro ops
    induction ops with
    | nil => intro s s' h hn _; simp [runOk] at h; subst h; exact hn
    | cons op ops ih =>
      intro s s' h hn hu
      simp only [runOk] at h
      cases hs : step s op with
      | mk s1 r =>
        rw [hs] at h
        cases r with
        | error e => simp at h
        | ok x =>
          refine ih s1 s' h ?_ (fun d i u hm => hu d i u (by simp [hm]))
          cases op with
          | addRow d i u =>
            have := hu d i u (by simp)
            obtain ⟨-, -, -, -, -, -, h5, h6, -⟩ := addRow_ok hs
            subst this
            have e : s1.ids.length = s.ids.length + 1 := by rw [h5]; simp
            rw [e, List.range_succ, List.map_append, ← hn, h5]; rfl
          | addColumn n d ix =>
            obtain ⟨-, -, -, -, h1, -, -⟩ := addColumn_ok hs
            rw [h1]; exact hn
  exact key ops _ _ h (by simp [fresh]) hu

/-- **C68 fails** when ids are mixed: an automatic id repeats an id given earlier. -/
theorem C68_mixed_ids_fails : ∃ (s s' : State), Inv s ∧
    runOk s [.addRow [("a", .atom 1)] (some 1) false, .addRow [("a", .atom 2)] none false] = some s' ∧ ¬ s'.ids.Nodup := by
  refine ⟨fresh [("a", 0)] [], _, fresh_inv (by decide +kernel), rfl, by decide +kernel⟩

end Verif.Table
