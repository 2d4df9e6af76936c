import Verif.Props.TableInit
import Verif.Model.TableFile

/-!
# C220: the columns of a table in a file
-/

namespace Verif.TableFile
open Verif TableInit

theorem insert_perm (c : Obj) : ∀ l : List Obj, (insertCol c l).Perm (c :: l)
  | [] => .refl _
  | d :: ds => by
    unfold insertCol
    split
    · exact .refl _
    · exact ((insert_perm c ds).cons d).trans (.swap ..)

theorem file_perm : ∀ l : List Obj, (fileOrder l).Perm l
  | [] => .refl _
  | c :: cs => (insert_perm c _).trans ((file_perm cs).cons c)

theorem insert_pairwise (c : Obj) : ∀ l : List Obj, l.Pairwise (fun a b => a.name ≤ b.name) → (insertCol c l).Pairwise (fun a b => a.name ≤ b.name)
  | [], _ => List.pairwise_singleton _ _
  | d :: ds, h => by
    rw [List.pairwise_cons] at h
    unfold insertCol
    split
    · rename_i hle
      refine List.pairwise_cons.2 ⟨fun x hx => ?_, List.pairwise_cons.2 h⟩
      rcases List.mem_cons.1 hx with rfl | hx
      · exact hle
      · exact String.le_trans hle (h.1 x hx)
    · rename_i hle
      refine List.pairwise_cons.2 ⟨fun x hx => ?_, insert_pairwise c ds h.2⟩
      rcases List.mem_cons.1 ((insert_perm c ds).mem_iff.1 hx) with rfl | hx
      · exact (String.le_total _ _).resolve_left hle
      · exact h.1 x hx

theorem file_pairwise : ∀ l : List Obj, (fileOrder l).Pairwise (fun a b => a.name ≤ b.name)
  | [] => .nil
  | c :: cs => insert_pairwise c _ (file_pairwise cs)

theorem sound_congr {L L' : List Obj} (h : ∀ c, c ∈ L ↔ c ∈ L') (hs : Sound L) : Sound L' :=
  ⟨fun i n l u hu => (h _).1 (hs.closed i n l u ((h _).2 hu)), fun i n l i' n' l' e he => hs.ragged i n l i' n' l' e ((h _).2 he),
   fun i n l e he => ⟨(h _).1 (hs.elements i n l e ((h _).2 he)).1, (hs.elements i n l e ((h _).2 he)).2⟩,
   fun i n l e he i' n' l' hi => hs.plain i n l e ((h _).2 he) i' n' l' ((h _).2 hi)⟩

theorem read_some {r : List String} {ids : List Int} {ns : List String} {l : List Obj} (hl : l ≠ []) :
    read r ⟨ids, ns, l⟩ = init r (some ids) (some l) ns := by
  cases l with
  | nil => exact (hl rfl).elim
  | cons c cs => rfl

/-! ## C220 -/

/-- a table with a column that has rows: the table that is read has the same ids, the same names in the same order, the same columns, and each name gives the same column -/
theorem C220_order_partial {r : List String} {ids : Option (List Int)} {L : List Obj} {ns : List String} {t : Table} {stored : List Nat}
    (h : init r ids (some L) ns = .ok t) (hs : Sound L) (hr : ∀ x ∈ L, x.isIndex = true → x.name ∉ r) (hl : ∀ c ∈ L, c.len ≠ none)
    (hsh : ∀ i n l i' n' l' e, Obj.enum i n l e ∈ L → Obj.enum i' n' l' e ∈ L → n = n') (hnd : ns.Nodup)
    (hel : ∀ n ∈ ns, ∀ c ∈ L, IsElements L c → c.name ≠ n)
    (hrow : ∃ c ∈ t.columns, ident c ∈ stored ∨ ∃ k, c.len = some (k + 1)) :
    ∃ t', read r (write stored t) = .ok t' ∧ t'.ids = t.ids ∧ t'.colnames = t.colnames ∧ (∀ c, c ∈ t'.columns ↔ c ∈ t.columns) ∧
      ∀ n ∈ t.colnames, t'.get n = t.get n := by
  obtain ⟨t', h1, h2, h3, h4, h5⟩ := C155_copy_partial h hs hr hl hsh hnd hel
  obtain ⟨-, -, hso, -, -, hnil⟩ := columns_spec h hs hr hsh hnd hel
  obtain ⟨-, -, -, hsub, -⟩ := init_spec h hs.closed hs.simple hr
  obtain ⟨c, hc, hk⟩ := hrow
  have hne : t.columns ≠ [] := fun e => by rw [e] at hc; cases hc
  have hcn : t.colnames ≠ [] := fun e => hne (hnil e)
  have ha : colnamesAttr stored t = t.colnames := by
    unfold colnamesAttr
    rw [if_neg]
    intro hall
    have := List.all_eq_true.1 hall c hc
    unfold truthy at this
    rcases hk with hk | ⟨k, hk⟩
    · simp [hk] at this
    · simp [hk] at this
  have hfo : fileOrder t.columns ≠ [] := fun e => hne (by
    have := (file_perm t.columns).length_eq
    rw [e] at this
    exact List.length_eq_zero_iff.1 this.symm)
  refine ⟨t', ?_, h2, h3, h4, h5⟩
  unfold write
  rw [ha, read_some hfo]
  exact C153_order_partial h1 hcn (file_perm t.columns).symm hso (fun c hc => hl c (hsub c hc))

example : ((init [] none (some ex) ["y", "x", "e"]).toOption.bind fun t => (read [] (write [] t)).toOption).map (fun t => (t.ids, t.colnames, t.columns)) =
    some ([0, 1], ["y", "x", "e"], [dy, xii, xi, dx, en, el]) := by decide +kernel

/-- a table without rows: what is read has the same ids and the same columns, and each name gives the same column, but the columns are in the order of
their names -/
theorem C220_empty {r : List String} {ids : Option (List Int)} {L : List Obj} {ns : List String} {t : Table} {stored : List Nat}
    (h : init r ids (some L) ns = .ok t) (hs : Sound L) (hr : ∀ x ∈ L, x.isIndex = true → x.name ∉ r) (hl : ∀ c ∈ L, c.len ≠ none)
    (hsh : ∀ i n l i' n' l' e, Obj.enum i n l e ∈ L → Obj.enum i' n' l' e ∈ L → n = n') (hnd : ns.Nodup)
    (hel : ∀ n ∈ ns, ∀ c ∈ L, IsElements L c → c.name ≠ n) (hne : t.columns ≠ [])
    (hrow : ∀ c ∈ t.columns, ident c ∉ stored ∧ c.len = some 0) :
    ∃ t', read r (write stored t) = .ok t' ∧ t'.ids = t.ids ∧ (∀ c, c ∈ t'.columns ↔ c ∈ t.columns) ∧ (∀ n, n ∈ t'.colnames ↔ n ∈ t.colnames) ∧
      (∀ n ∈ t.colnames, t'.get n = t.get n) ∧ t'.columns.Pairwise (fun a b => a.name ≤ b.name) ∧ t'.colnames.Pairwise (fun a b => a ≤ b) := by
  obtain ⟨hn, htn, hso, hco, hall, hnil⟩ := columns_spec h hs hr hsh hnd hel
  obtain ⟨w, w', hsim, hsub, hg⟩ := init_spec h hs.closed hs.simple hr
  obtain ⟨h1, -⟩ := init_ok h
  have hp := file_perm t.columns
  have hm : ∀ c, c ∈ fileOrder t.columns ↔ c ∈ t.columns := fun c => hp.mem_iff
  have ha : colnamesAttr stored t = [] := by
    unfold colnamesAttr
    rw [if_pos]
    refine List.all_eq_true.2 fun c hc => ?_
    obtain ⟨g1, g2⟩ := hrow c hc
    unfold truthy
    simp [g1, g2]
  have hfo : fileOrder t.columns ≠ [] := fun e => hne (by
    have := hp.length_eq
    rw [e] at this
    exact List.length_eq_zero_iff.1 this.symm)
  have hso' : Sound (fileOrder t.columns) := sound_congr (fun c => (hm c).symm) hso
  have hn' : ((fileOrder t.columns).map Obj.name).Nodup := (hp.map _).nodup_iff.2 hn
  have htn' : (targets (fileOrder t.columns)).Nodup := by
    refine targets_nodup _ ((List.pairwise_map.1 hn').imp fun g e => g (congrArg Obj.name e)) ?_
    intro i n l u i' n' l' u' hu hu'
    exact w'.targs i n l u i' n' l' u' ((hm _).1 hu) ((hm _).1 hu')
  have hr' : ∀ x ∈ fileOrder t.columns, x.isIndex = true → x.name ∉ r := fun x hx => hr x (hsub x ((hm x).1 hx))
  obtain ⟨t', ht', hlen⟩ := C150_accepts (r := r) (ids := some t.ids) (ns := []) (k := t.ids.length) hfo hso' hr' hn' htn'
    (fun c hc => hl c (hsub c ((hm c).1 hc))) (by
      intro c hc hce hci
      have hcc : Counted t.columns c := ⟨(hm c).1 hc, fun ht => by
          obtain ⟨i, n, l, u, hu, e⟩ := mem_targets.1 ht
          have : u = c := w'.names u (hso.closed _ _ _ _ hu) c ((hm c).1 hc) e
          subst this
          exact hci i n l ((hm _).2 hu), fun he => by
          obtain ⟨i, n, l, hx⟩ := (elems_iff hso hn ((hm c).1 hc)).1 he
          exact hce ⟨i, n, l, (hm _).2 hx⟩⟩
      have hcL := hco c hcc
      rw [(hrow c hcc.1).2, makeIds_len h1 hcL.1 (hrow c hcc.1).2 hcL.2.1 hcL.2.2]) (.inr (.inr ⟨_, rfl, rfl⟩)) (by simp)
  obtain ⟨e1, cs, e2, e3, e4⟩ := C152_colnames_partial ht' hso'
  have hcol : ∀ n, n ∈ t'.colnames ↔ n ∈ t.colnames := by
    intro n
    rw [e2, List.mem_map]
    constructor
    · rintro ⟨c, hc, rfl⟩
      have hcL := e3.subset hc
      obtain ⟨g1, g2⟩ := (e4 c hcL).1 hc
      exact hall c ((hm c).1 hcL) g1 (fun ⟨i, n, l, he⟩ => g2 ⟨i, n, l, (hm _).2 he⟩)
    · intro hn1
      obtain ⟨b, hbL, hbi, hbn, hbc, -⟩ := hg n hn1
      refine ⟨b, (e4 b ((hm b).2 hbc)).2 ⟨hbi, ?_⟩, hbn⟩
      rintro ⟨i, m, l, he⟩
      have heL := hsub _ ((hm _).1 he)
      by_cases hns : ns = []
      · subst hns
        obtain ⟨-, cs', g2, g3, g4⟩ := C152_colnames_partial h hs
        rw [g2] at hn1
        obtain ⟨b', hb', hbn'⟩ := List.mem_map.1 hn1
        have : b' = b := w.names b' (g3.subset hb') b hbL (by rw [hbn', hbn])
        subst this
        exact ((g4 b' hbL).1 hb').2 ⟨i, m, l, heL⟩
      · obtain ⟨-, h2, -⟩ := init_ok h
        obtain ⟨g1, -⟩ := arrange_given hns h2
        rw [g1] at hn1
        exact hel n hn1 b hbL ⟨i, m, l, heL⟩ hbn
  refine ⟨t', ?_, ?_, ?_, hcol, ?_, ?_, ?_⟩
  · unfold write
    rw [ha, read_some hfo]
    exact ht'
  · cases hid : t.ids with
    | nil =>
      rw [hid] at hlen
      exact List.length_eq_zero_iff.1 hlen
    | cons i is =>
      rw [hid] at ht'
      exact C151_given ht' (by simp)
  · intro c; rw [e1]; exact hm c
  · intro n hn1
    obtain ⟨-, -, -, -, hg'⟩ := init_spec ht' hso'.closed hso'.simple hr'
    obtain ⟨b, hb, hbi, hbn, hbc, o, ho, htop, -⟩ := hg n hn1
    obtain ⟨b', hb', hbi', hbn', -, o', ho', -, htop'⟩ := hg' n ((hcol n).2 hn1)
    have : b' = b := w'.names b' ((hm b').1 hb') b hbc (by rw [hbn', hbn])
    subst this
    have htop2 : Top t.columns b' o' := ⟨(hm o').1 htop'.1, htop'.2.1, fun c hc => htop'.2.2 c ((hm c).2 hc)⟩
    rw [ho, ho', top_unique htop htop2]
  · rw [e1]; exact file_pairwise _
  · rw [e2, List.pairwise_map]
    exact (file_pairwise t.columns).sublist e3

/-- the order is lost: the columns b and a without rows are a and b in the table that is read; with rows they are not -/
theorem C220_order_fails : ((init [] none (some [.data 1 "b" (some 0), .data 2 "a" (some 0)]) []).toOption.bind fun t =>
      (read [] (write [] t)).toOption.map fun t' => (t.colnames, t'.colnames)) = some (["b", "a"], ["a", "b"]) ∧
    ((init [] none (some [.data 1 "b" (some 1), .data 2 "a" (some 1)]) []).toOption.bind fun t =>
      (read [] (write [] t)).toOption.map fun t' => (t.colnames, t'.colnames)) = some (["b", "a"], ["b", "a"]) := by decide +kernel

/-- exporting the table that was read keeps the order: data in a file count as a column with rows -/
example : ((init [] none (some [.data 1 "b" (some 0), .data 2 "a" (some 0)]) ["b", "a"]).toOption.bind fun t =>
      (read [] (write [1, 2] t)).toOption.map fun t' => (t.colnames, t'.colnames)) = some (["b", "a"], ["b", "a"]) := by decide +kernel

/-- a table without columns keeps its ids -/
theorem C220_no_columns (r : List String) (ids : List Int) (stored : List Nat) (t : Table) (h : init r (some ids) none [] = .ok t) :
    t.ids = ids ∧ read r (write stored t) = .ok t := by
  cases h
  exact ⟨rfl, rfl⟩

example : (init [] (some [3, 4]) none []).toOption.isSome = true := by decide +kernel

end Verif.TableFile
