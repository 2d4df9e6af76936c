import Verif.Model.TypeConf

/-!
# C227: which type maps share a configuration
-/

namespace Verif.TypeConf
open Verif Verif.Terms

variable {Cfg : Type}

/-- which maps come from the global map by copying, after each operation of a history -/
def family : List Op → List Bool → List Bool
  | [], f => f
  | .copy none :: os, f => family os (f ++ [true])
  | .copy (some m) :: os, f => family os (f ++ [f.getD m true])
  | .fresh :: os, f => family os (f ++ [false])
  | _ :: os, f => family os f

/-- the operations on the configurator that were made through maps of the family -/
def through : List Op → List Bool → List COp
  | [], _ => []
  | .copy none :: os, f => through os (f ++ [true])
  | .copy (some m) :: os, f => through os (f ++ [f.getD m true])
  | .fresh :: os, f => through os (f ++ [false])
  | .load none p :: os, f => .load p :: through os f
  | .load (some m) p :: os, f => if f.getD m true then .load p :: through os f else through os f
  | .unload none :: os, f => .unload :: through os f
  | .unload (some m) :: os, f => if f.getD m true then .unload :: through os f else through os f

/-- the family is the maps whose configurator is that of the global map -/
def Rel (s : St Cfg) (f : List Bool) : Prop :=
  s.maps.length = f.length ∧ s.maps.getD 0 0 = 0 ∧ 0 < s.confs.length ∧ ∀ m, (s.maps.getD m 0 = 0 ↔ f.getD m true = true)

theorem getD_snoc {α : Type} (l : List α) (x d : α) (m : Nat) : (l ++ [x]).getD m d = if m = l.length then x else l.getD m d := by
  rw [List.getD_eq_getElem?_getD, List.getD_eq_getElem?_getD]
  by_cases h : m < l.length
  · rw [List.getElem?_append_left h, if_neg (by omega)]
  · rw [List.getElem?_append_right (by omega)]
    by_cases h2 : m = l.length
    · subst h2; simp
    · rw [if_neg h2]
      have : 1 ≤ m - l.length := by omega
      simp [List.getElem?_eq_none (by omega : l.length ≤ m), List.getElem?_eq_none (l := [x]) (by simpa using this)]

theorem rel_snoc {s : St Cfg} {f : List Bool} (h : Rel s f) {r : Nat} {b : Bool} (hr : r = 0 ↔ b = true) (cs : List (Conf Cfg)) (hc : 0 < cs.length) (hm : 0 < s.maps.length) :
    Rel ⟨cs, s.maps ++ [r]⟩ (f ++ [b]) := by
  obtain ⟨h1, h2, h3, h4⟩ := h
  refine ⟨by simp [h1], ?_, hc, ?_⟩
  · show (s.maps ++ [r]).getD 0 0 = 0
    rw [getD_snoc, if_neg (by omega), h2]
  · intro m
    show (s.maps ++ [r]).getD m 0 = 0 ↔ _
    rw [getD_snoc, getD_snoc, h1]
    by_cases hm : m = f.length
    · rw [if_pos hm, if_pos hm]; exact hr
    · rw [if_neg hm, if_neg hm]; exact h4 m

theorem set_getD (l : List (Conf Cfg)) (k : Nat) (x : Conf Cfg) (hl : 0 < l.length) : (l.set k x).getD 0 ⟨none, []⟩ = if k = 0 then x else l.getD 0 ⟨none, []⟩ := by
  cases l with
  | nil => exact absurd hl (by simp)
  | cons a l => cases k <;> rfl

theorem run_rel (fs : String → File Cfg) (ops : List Op) (s : St Cfg) (f : List Bool) (hm : 0 < s.maps.length) (h : Rel s f) :
    Rel (ops.foldl (step fs) s) (family ops f) ∧
      (ops.foldl (step fs) s).confs.getD 0 ⟨none, []⟩ = (through ops f).foldl (cstep fs) (s.confs.getD 0 ⟨none, []⟩) := by
  induction ops generalizing s f with
  | nil => exact ⟨h, rfl⟩
  | cons o os ih =>
    have h' := h
    obtain ⟨h1, h2, h3, h4⟩ := h'
    cases o with
    | copy m =>
      cases m with
      | none =>
        have := ih (step fs s (.copy none)) (f ++ [true]) (by simp [step]) (rel_snoc h (⟨fun _ => rfl, fun _ => h2⟩ : refOf s none = 0 ↔ true = true) s.confs h3 hm)
        exact this
      | some m => exact ih (step fs s (.copy (some m))) (f ++ [f.getD m true]) (by simp [step]) (rel_snoc h (h4 m) s.confs h3 hm)
    | fresh =>
      have := ih (step fs s .fresh) (f ++ [false]) (by simp [step]) (rel_snoc h (⟨fun e => absurd e (Nat.ne_of_gt h3), fun e => nomatch e⟩ : s.confs.length = 0 ↔ false = true) _ (by simp) hm)
      refine ⟨this.1, this.2.trans ?_⟩
      show (through os _).foldl _ ((s.confs ++ [_]).getD 0 _) = _
      rw [getD_snoc, if_neg (by omega)]
      rfl
    | load m p =>
      have hr : ∀ x, Rel { s with confs := s.confs.set (refOf s m) x } f := fun x => ⟨h1, h2, by simpa using h3, h4⟩
      have := ih (step fs s (.load m p)) f hm (hr _)
      cases m with
      | none =>
        refine ⟨this.1, this.2.trans ?_⟩
        show (through os f).foldl _ ((s.confs.set (refOf s none) _).getD 0 _) = _
        rw [set_getD _ _ _ h3, if_pos (show refOf s none = 0 from h2)]
        show _ = (through os f).foldl _ (cstep fs _ _)
        simp only [cstep, confOf, refOf, h2]
      | some m =>
        refine ⟨this.1, this.2.trans ?_⟩
        show (through os f).foldl _ ((s.confs.set (refOf s (some m)) _).getD 0 _) = (if f.getD m true then _ else _ : List COp).foldl _ _
        rw [set_getD _ _ _ h3]
        by_cases hf : f.getD m true = true
        · have h0 := (h4 m).2 hf
          rw [if_pos (show refOf s (some m) = 0 from h0), if_pos hf]
          show _ = (through os f).foldl _ (cstep fs _ _)
          simp only [cstep, confOf, refOf, h0]
        · have h0 : ¬ s.maps.getD m 0 = 0 := fun h => hf ((h4 m).1 h)
          rw [if_neg (show ¬ refOf s (some m) = 0 from h0), if_neg hf]
    | unload m =>
      have hr : ∀ x, Rel { s with confs := s.confs.set (refOf s m) x } f := fun x => ⟨h1, h2, by simpa using h3, h4⟩
      have := ih (step fs s (.unload m)) f hm (hr _)
      cases m with
      | none =>
        refine ⟨this.1, this.2.trans ?_⟩
        show (through os f).foldl _ ((s.confs.set (refOf s none) _).getD 0 _) = _
        rw [set_getD _ _ _ h3, if_pos (show refOf s none = 0 from h2)]
        rfl
      | some m =>
        refine ⟨this.1, this.2.trans ?_⟩
        show (through os f).foldl _ ((s.confs.set (refOf s (some m)) _).getD 0 _) = (if f.getD m true then _ else _ : List COp).foldl _ _
        rw [set_getD _ _ _ h3]
        by_cases hf : f.getD m true = true
        · rw [if_pos (show refOf s (some m) = 0 from (h4 m).2 hf), if_pos hf]
          rfl
        · have h0 : ¬ s.maps.getD m 0 = 0 := fun h => hf ((h4 m).1 h)
          rw [if_neg (show ¬ refOf s (some m) = 0 from h0), if_neg hf]

theorem rel_init : Rel (init : St Cfg) [true] := by
  refine ⟨rfl, rfl, Nat.one_pos, ?_⟩
  intro m
  cases m with
  | zero => simp [init]
  | succ m => simp [init]

/-- after any history, a map that comes from the global one by copying has the configuration by which the fields of containers are checked -/
theorem C227_shared_partial (fs : String → File Cfg) (ops : List Op) (m : Nat) (hm : (family ops [true]).getD m true = true) :
    confOf (run fs ops) (some m) = fieldConf (run fs ops) := by
  obtain ⟨hr, -⟩ := run_rel fs ops init [true] Nat.one_pos rel_init
  obtain ⟨-, h2, -, h4⟩ := hr
  unfold fieldConf confOf refOf step
  simp only
  rw [getD_snoc, if_pos rfl]
  have h0 := (h4 m).2 hm
  unfold run
  rw [h0]
  simp only [refOf, h2]

/-- and that configuration is what was loaded and unloaded through these maps, in order, as if there was one configurator -/
theorem C227_history (fs : String → File Cfg) (ops : List Op) : fieldConf (run fs ops) = crun fs (through ops [true]) := by
  obtain ⟨hr, hc⟩ := run_rel fs ops init [true] Nat.one_pos rel_init
  obtain ⟨-, h2, -, -⟩ := hr
  unfold fieldConf confOf refOf step
  simp only
  rw [getD_snoc, if_pos rfl]
  simp only [refOf]
  unfold run
  rw [h2, hc]
  rfl

/-- maps created with `TypeMap()`, and all that is done with them and their copies, do not matter for the fields of containers -/
theorem C227_independent (fs : String → File Cfg) (ops : List Op) (m : Nat) (p : String) (hm : (family ops [true]).getD m true = false) :
    fieldConf (run fs (ops ++ [.load (some m) p])) = fieldConf (run fs ops) ∧ fieldConf (run fs (ops ++ [.unload (some m)])) = fieldConf (run fs ops) := by
  have key : ∀ (ops : List Op) (f : List Bool) (o : Op), (o = .load (some m) p ∨ o = .unload (some m)) → (family ops f).getD m true = false → through (ops ++ [o]) f = through ops f := by
    intro ops
    induction ops with
    | nil =>
      intro f o ho hf
      have hf : f.getD m true = false := hf
      rcases ho with rfl | rfl
      · show (if f.getD m true then _ else _) = _
        rw [hf]; rfl
      · show (if f.getD m true then _ else _) = _
        rw [hf]; rfl
    | cons x xs ih =>
      intro f o ho hf
      cases x with
      | copy k => cases k <;> exact ih _ o ho hf
      | fresh => exact ih _ o ho hf
      | load k q =>
        cases k with
        | none => exact congrArg (COp.load q :: ·) (ih _ o ho hf)
        | some k =>
          have := ih f o ho hf
          show (if _ then _ :: through (xs ++ [o]) f else through (xs ++ [o]) f) = _
          rw [this]
          rfl
      | unload k =>
        cases k with
        | none => exact congrArg (COp.unload :: ·) (ih _ o ho hf)
        | some k =>
          have := ih f o ho hf
          show (if _ then _ :: through (xs ++ [o]) f else through (xs ++ [o]) f) = _
          rw [this]
          rfl
  rw [C227_history, C227_history, C227_history, key ops _ _ (.inl rfl) hm, key ops _ _ (.inr rfl) hm]
  exact ⟨rfl, rfl⟩

example : (family [.copy none, .fresh, .copy (some 1), .copy (some 2)] [true]) = [true, true, false, true, false] ∧
    (through [.copy none, .fresh, .load (some 1) "a", .load (some 2) "b", .unload none] [true]).length = 2 := by decide +kernel

/-- a configuration that is loaded through a new type map is not seen by others: it is not shared across all type maps -/
theorem C227_all_maps_fails : ∃ (fs : String → File Nat) (ops : List Op), (confOf (run fs ops) (some 1)).path = ["a"] ∧ (confOf (run fs ops) (some 0)).path = [] ∧
    (fieldConf (run fs ops)).path = [] :=
  ⟨fun _ => some [], [.fresh, .load (some 1) "a"], by decide +kernel, by decide +kernel, by decide +kernel⟩

end Verif.TypeConf
