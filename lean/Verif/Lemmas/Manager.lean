import Verif.Model.Manager
import Verif.Base.Tac

/-!
# Lemmas about the bookkeeping of `BuildManager`
-/

namespace Verif.Manager
open Verif
open Relation (TransGen)

theorem le_maxOf {l : List Nat} {x : Nat} (h : x ∈ l) : x ≤ maxOf l := by
  induction l with
  | nil => simp at h
  | cons y l ih =>
    simp only [maxOf, List.foldr_cons]
    rcases List.mem_cons.1 h with rfl | h
    · exact Nat.le_max_left _ _
    · exact Nat.le_trans (ih h) (Nat.le_max_right _ _)

theorem freshB_none (st : St) : Dict.get? st.containers (freshB st) = none := by
  rw [Dict.get?_eq_none_iff]
  intro h
  have := le_maxOf h
  unfold freshB at this
  omega

theorem freshC_none (st : St) : Dict.get? st.builders (freshC st) = none := by
  rw [Dict.get?_eq_none_iff]
  intro h
  have := le_maxOf h
  unfold freshC at this
  omega

/-- the two tables are inverse to each other -/
def Inv (st : St) : Prop := ∀ c b, Dict.get? st.builders c = some b ↔ Dict.get? st.containers b = some c

theorem Inv.prebuilt {st : St} (h : Inv st) {c b : Nat} (hc : Dict.get? st.builders c = none) (hb : Dict.get? st.containers b = none) :
    Inv (prebuilt st c b) := by
  intro c' b'
  simp only [Manager.prebuilt, Dict.get?_set]
  by_cases h1 : c' = c
  · subst h1
    rw [if_pos rfl]
    by_cases h2 : b' = b
    · subst h2; simp
    · rw [if_neg h2, ← h, hc]
      simp; omega
  · rw [if_neg h1]
    by_cases h2 : b' = b
    · subst h2
      rw [if_pos rfl, h, hb]
      simp; omega
    · rw [if_neg h2]; exact h c' b'

/-- what `build` changes -/
structure Frame (st st' : St) : Prop where
  nextB : st.nextB ≤ st'.nextB
  cont_none : ∀ b, b < st.nextB → Dict.get? st.containers b = none → Dict.get? st'.containers b = none
  keep : ∀ c b, Dict.get? st.builders c = some b → Dict.get? st'.builders c = some b
  keepC : ∀ b c, Dict.get? st.containers b = some c → Dict.get? st'.containers b = some c
  modified : st'.modified = st.modified
  nextC : st'.nextC = st.nextC
  ran : st'.ran = st.ran
  queue : ∃ new, st'.queue = st.queue ++ new ∧ st'.queued = st.queued ++ new
  active : ∀ b ∈ st.active, b ∈ st'.active
  act : ∀ b ∈ st'.active, b ∈ st.active ∨ Dict.get? st.containers b = none

theorem Frame.refl (st : St) : Frame st st :=
  ⟨Nat.le_refl _, fun _ _ h => h, fun _ _ h => h, fun _ _ h => h, rfl, rfl, rfl, ⟨[], by simp, by simp⟩, fun _ h => h, fun _ h => Or.inl h⟩

theorem Frame.trans {a b c : St} (h1 : Frame a b) (h2 : Frame b c) : Frame a c := by
  refine ⟨Nat.le_trans h1.nextB h2.nextB, ?_, fun c b h => h2.keep c b (h1.keep c b h), fun b c h => h2.keepC b c (h1.keepC b c h),
    h2.modified.trans h1.modified, h2.nextC.trans h1.nextC, h2.ran.trans h1.ran, ?_, fun b h => h2.active b (h1.active b h), ?_⟩
  · intro x hx h
    exact h2.cont_none x (Nat.lt_of_lt_of_le hx h1.nextB) (h1.cont_none x hx h)
  · obtain ⟨n1, e1, e2⟩ := h1.queue
    obtain ⟨n2, e3, e4⟩ := h2.queue
    exact ⟨n1 ++ n2, by rw [e3, e1, List.append_assoc], by rw [e4, e2, List.append_assoc]⟩
  · intro x hx
    rcases h2.act x hx with h | h
    · exact h1.act x h
    · right
      cases hg : Dict.get? a.containers x with
      | none => rfl
      | some c => rw [h1.keepC x c hg] at h; cases h

theorem runEvs_frame {go : St → Nat → St × Except Err Nat}
    (hgo : ∀ st c, Frame st (go st c).1 ∧ ∀ b, (go st c).2 = .ok b → Dict.get? (go st c).1.builders c = some b) :
    ∀ evs st, Frame st (runEvs go st evs).1 ∧
      ((runEvs go st evs).2 = .ok () →
        (∀ d, Ev.child d ∈ evs → (Dict.get? (runEvs go st evs).1.builders d).isSome) ∧
        (∀ d, Ev.need d ∈ evs → (Dict.get? (runEvs go st evs).1.builders d).isSome) ∧
        (∀ a, Ev.queue a ∈ evs → a ∈ (runEvs go st evs).1.queued)) := by
  intro evs
  induction evs with
  | nil => intro st; exact ⟨Frame.refl _, by simp⟩
  | cons ev evs ih =>
    intro st
    cases ev with
    | child c =>
      obtain ⟨g2, g3⟩ := hgo st c
      simp only [runEvs]
      cases hg : go st c with
      | mk st' r =>
        rw [hg] at g2 g3
        cases r with
        | error e => exact ⟨g2, by simp⟩
        | ok b =>
          obtain ⟨i2, i3⟩ := ih st'
          refine ⟨g2.trans i2, ?_⟩
          intro hok
          obtain ⟨j1, j2, j3⟩ := i3 hok
          refine ⟨?_, ?_, ?_⟩
          · intro d hd
            simp only [List.mem_cons, Ev.child.injEq] at hd
            rcases hd with rfl | hd
            · rw [i2.keep _ b (g3 b rfl)]; rfl
            · exact j1 d hd
          · intro d hd
            simp only [List.mem_cons, reduceCtorEq, false_or] at hd
            exact j2 d hd
          · intro a ha
            simp only [List.mem_cons, reduceCtorEq, false_or] at ha
            exact j3 a ha
    | queue a =>
      simp only [runEvs]
      obtain ⟨i2, i3⟩ := ih { st with queue := st.queue ++ [a], queued := st.queued ++ [a] }
      have h0 : Frame st { st with queue := st.queue ++ [a], queued := st.queued ++ [a] } :=
        ⟨Nat.le_refl _, fun _ _ h => h, fun _ _ h => h, fun _ _ h => h, rfl, rfl, rfl, ⟨[a], rfl, rfl⟩, fun _ h => h, fun _ h => Or.inl h⟩
      refine ⟨h0.trans i2, ?_⟩
      intro hok
      obtain ⟨j1, j2, j3⟩ := i3 hok
      refine ⟨?_, ?_, ?_⟩
      · intro d hd
        simp only [List.mem_cons, reduceCtorEq, false_or] at hd
        exact j1 d hd
      · intro d hd
        simp only [List.mem_cons, reduceCtorEq, false_or] at hd
        exact j2 d hd
      · intro x hx
        simp only [List.mem_cons, Ev.queue.injEq] at hx
        rcases hx with rfl | hx
        · obtain ⟨new, -, e⟩ := i2.queue
          rw [e]; simp
        · exact j3 x hx
    | need c =>
      simp only [runEvs]
      cases hg : Dict.get? st.builders c with
      | none => exact ⟨Frame.refl _, by simp⟩
      | some b =>
        obtain ⟨i2, i3⟩ := ih st
        refine ⟨i2, ?_⟩
        intro hok
        obtain ⟨j1, j2, j3⟩ := i3 hok
        refine ⟨?_, ?_, ?_⟩
        · intro d hd
          simp only [List.mem_cons, reduceCtorEq, false_or] at hd
          exact j1 d hd
        · intro d hd
          simp only [List.mem_cons, Ev.need.injEq] at hd
          rcases hd with rfl | hd
          · simp only; rw [i2.keep _ b hg]; rfl
          · exact j2 d hd
        · intro a ha
          simp only [List.mem_cons, reduceCtorEq, false_or] at ha
          exact j3 a ha
    | fail e => exact ⟨Frame.refl _, by simp [runEvs]⟩

/-- the start of the mapper of a container without a builder -/
theorem frame_start (st : St) (c : Nat) : Frame st { st with nextB := freshB st + 1, worked := st.worked ++ [c] } :=
  ⟨Nat.le_succ_of_le (Nat.le_max_left _ _), fun _ _ h => h, fun _ _ h => h, fun _ _ h => h, rfl, rfl, rfl, ⟨[], by simp, by simp⟩,
    fun _ h => h, fun _ h => Or.inl h⟩

/-- the start of the mapper of a modified container -/
theorem frame_again (st : St) (c : Nat) : Frame st { st with worked := st.worked ++ [c] } :=
  ⟨Nat.le_refl _, fun _ _ h => h, fun _ _ h => h, fun _ _ h => h, rfl, rfl, rfl, ⟨[], by simp, by simp⟩, fun _ h => h, fun _ h => Or.inl h⟩

theorem build_frame (env : Env) (f : Nat) : ∀ st c, Frame st (build env f st c).1 ∧
    ∀ b, (build env f st c).2 = .ok b → Dict.get? (build env f st c).1.builders c = some b := by
  induction f with
  | zero => intro st c; exact ⟨Frame.refl _, by simp [build]⟩
  | succ f ih =>
    intro st c
    simp only [build]
    cases hg : Dict.get? st.builders c with
    | none =>
      simp only
      have i2 := (runEvs_frame ih (env.events c) { st with nextB := freshB st + 1, worked := st.worked ++ [c] }).1
      cases hrun : runEvs (build env f) { st with nextB := freshB st + 1, worked := st.worked ++ [c] } (env.events c) with
      | mk st' r =>
        rw [hrun] at i2
        have hF := (frame_start st c).trans i2
        have hn : st.nextB ≤ freshB st := Nat.le_max_left _ _
        cases r with
        | error e => exact ⟨hF, by simp⟩
        | ok u =>
          have hbn : Dict.get? st'.containers (freshB st) = none := i2.cont_none _ (Nat.lt_succ_self _) (freshB_none st)
          refine ⟨⟨hF.nextB, ?_, ?_, ?_, hF.modified, hF.nextC, hF.ran, hF.queue, ?_, ?_⟩, ?_⟩
          · intro x hx h
            simp only [prebuilt, Dict.get?_set]
            rw [if_neg (by omega)]
            exact hF.cont_none x hx h
          · intro c' b' h
            simp only [prebuilt, Dict.get?_set]
            rw [if_neg (by rintro rfl; rw [hg] at h; cases h)]
            exact hF.keep c' b' h
          · intro b' c' h
            have := hF.keepC b' c' h
            simp only [prebuilt, Dict.get?_set]
            rw [if_neg (by rintro rfl; rw [hbn] at this; cases this)]
            exact this
          · intro b hb; simp only [prebuilt]; exact List.mem_cons_of_mem _ (hF.active b hb)
          · intro b hb
            simp only [prebuilt, List.mem_cons] at hb
            rcases hb with rfl | hb
            · exact Or.inr (freshB_none st)
            · exact hF.act b hb
          · intro b hb
            simp only [Except.ok.injEq] at hb
            subst hb
            simp [prebuilt]
    | some b =>
      simp only
      split
      · have i2 := (runEvs_frame ih (env.events c) { st with worked := st.worked ++ [c] }).1
        cases hrun : runEvs (build env f) { st with worked := st.worked ++ [c] } (env.events c) with
        | mk st' r =>
          rw [hrun] at i2
          have hF := (frame_again st c).trans i2
          cases r with
          | error e => exact ⟨hF, by simp⟩
          | ok u =>
            refine ⟨hF, ?_⟩
            intro b' hb'
            simp only [Except.ok.injEq] at hb'
            subst hb'
            exact hF.keep c _ hg
      · refine ⟨Frame.refl _, ?_⟩
        intro b' hb'
        simp only [Except.ok.injEq] at hb'
        subst hb'; exact hg

/-- what the processing of the queue changes: like `Frame`, except for the queue -/
structure RFrame (st st' : St) : Prop where
  nextB : st.nextB ≤ st'.nextB
  keep : ∀ c b, Dict.get? st.builders c = some b → Dict.get? st'.builders c = some b
  modified : st'.modified = st.modified
  log : ∃ new, st'.queued = st.queued ++ new ∧ st'.ran ++ st'.queue = st.ran ++ st.queue ++ new
  ran : ∃ done, st'.ran = st.ran ++ done

theorem RFrame.refl (st : St) : RFrame st st := ⟨Nat.le_refl _, fun _ _ h => h, rfl, ⟨[], by simp, by simp⟩, ⟨[], by simp⟩⟩

theorem RFrame.trans {a b c : St} (h1 : RFrame a b) (h2 : RFrame b c) : RFrame a c := by
  refine ⟨Nat.le_trans h1.nextB h2.nextB, fun c b h => h2.keep c b (h1.keep c b h), h2.modified.trans h1.modified, ?_, ?_⟩
  · obtain ⟨n1, e1, e2⟩ := h1.log
    obtain ⟨n2, e3, e4⟩ := h2.log
    exact ⟨n1 ++ n2, by rw [e3, e1, List.append_assoc], by rw [e4, e2]; simp⟩
  · obtain ⟨d1, e1⟩ := h1.ran
    obtain ⟨d2, e2⟩ := h2.ran
    exact ⟨d1 ++ d2, by rw [e2, e1, List.append_assoc]⟩

theorem Frame.toR {st st' : St} (h : Frame st st') : RFrame st st' := by
  refine ⟨h.nextB, h.keep, h.modified, ?_, ⟨[], by rw [h.ran]; simp⟩⟩
  obtain ⟨new, e1, e2⟩ := h.queue
  exact ⟨new, e2, by rw [h.ran, e1, List.append_assoc]⟩

theorem addRefs_ok (env : Env) (f n : Nat) : ∀ st, RFrame st (addRefs env f n st).1 ∧
      ((addRefs env f n st).2 = .ok () → (addRefs env f n st).1.queue = [] ∧
        ∀ a, a ∈ (addRefs env f n st).1.ran → a ∈ st.ran ∨
          ∀ d, Ev.need d ∈ env.script a → (Dict.get? (addRefs env f n st).1.builders d).isSome) := by
  induction n with
  | zero => intro st; exact ⟨RFrame.refl _, by simp [addRefs]⟩
  | succ n ih =>
    intro st
    simp only [addRefs]
    split
    · rename_i hq
      exact ⟨RFrame.refl _, fun _ => ⟨hq, fun a ha => Or.inl ha⟩⟩
    · rename_i a q hq
      obtain ⟨i2, i3⟩ := runEvs_frame (build_frame env f) (env.script a) { st with queue := q, ran := st.ran ++ [a] }
      have h0 : RFrame st { st with queue := q, ran := st.ran ++ [a] } :=
        ⟨Nat.le_refl _, fun _ _ h => h, rfl, ⟨[], by simp, by rw [hq]; simp⟩, ⟨[a], rfl⟩⟩
      cases hrun : runEvs (build env f) { st with queue := q, ran := st.ran ++ [a] } (env.script a) with
      | mk st' r =>
        rw [hrun] at i2 i3
        cases r with
        | error e => exact ⟨h0.trans i2.toR, by simp⟩
        | ok u =>
          obtain ⟨j2, j3⟩ := ih st'
          refine ⟨h0.trans (i2.toR.trans j2), ?_⟩
          intro hok
          obtain ⟨k1, k2⟩ := j3 hok
          refine ⟨k1, ?_⟩
          intro x hx
          rcases k2 x hx with hx | hx
          · rw [i2.ran] at hx
            simp only [List.mem_append, List.mem_singleton] at hx
            rcases hx with hx | rfl
            · exact Or.inl hx
            · right
              intro d hd
              have := (i3 rfl).2.1 d hd
              obtain ⟨b, hb⟩ := Option.isSome_iff_exists.1 this
              simp only
              rw [j2.keep d b hb]; rfl
          · exact Or.inr hx

/-! ### Containers reached again while their own mapper runs -/

/-- the container has a builder that this build will not build again -/
def Done (st : St) (c : Nat) : Prop := ∃ b, Dict.get? st.builders c = some b ∧ (b ∈ st.active ∨ c ∉ st.modified)

/-- building `c` is certain to build `d` first -/
def Edge (env : Env) (st : St) (c d : Nat) : Prop := ¬ Done st c ∧ Ev.child d ∈ env.events c

theorem Frame.done {st st' : St} (h : Frame st st') {c : Nat} (hd : Done st c) : Done st' c := by
  obtain ⟨b, hb, hc⟩ := hd
  refine ⟨b, h.keep c b hb, ?_⟩
  rcases hc with hc | hc
  · exact Or.inl (h.active b hc)
  · right; rw [h.modified]; exact hc

/-- a container whose builder was not touched still has to be built -/
theorem Frame.pend {st st' : St} (h : Frame st st') (hI : Inv st) {c : Nat} (hs : Dict.get? st'.builders c = Dict.get? st.builders c)
    (hp : ¬ Done st c) : ¬ Done st' c := by
  rintro ⟨b, hb, hc⟩
  rw [hs] at hb
  refine hp ⟨b, hb, ?_⟩
  rcases hc with hc | hc
  · rcases h.act b hc with h1 | h1
    · exact Or.inl h1
    · rw [(hI c b).1 hb] at h1; cases h1
  · right; rw [← h.modified]; exact hc

theorem Frame.edge {env : Env} {st st' : St} (h : Frame st st') (hI : Inv st) {c d : Nat}
    (hs : Dict.get? st'.builders c = Dict.get? st.builders c) (he : Edge env st c d) : Edge env st' c d :=
  ⟨h.pend hI hs he.1, he.2⟩

/-- every container of the set needs another one of the set first -/
def Closed (env : Env) (S : Nat → Prop) (st : St) : Prop := ∀ c, S c → ∃ d, S d ∧ Edge env st c d

theorem Closed.frame {env : Env} {S : Nat → Prop} {st st' : St} (h : Frame st st') (hI : Inv st)
    (hs : ∀ x, S x → Dict.get? st'.builders x = Dict.get? st.builders x) (hc : Closed env S st) : Closed env S st' := by
  intro c hS
  obtain ⟨d, hd, he⟩ := hc c hS
  exact ⟨d, hd, h.edge hI (hs c hS) he⟩

/-- the containers of a closed set are never built -/
def Stuck (env : Env) (go : St → Nat → St × Except Err Nat) : Prop := ∀ (S : Nat → Prop) st, Inv st → Closed env S st → ∀ c,
  (∀ x, S x → Dict.get? (go st c).1.builders x = Dict.get? st.builders x) ∧ (S c → ∀ b, (go st c).2 ≠ .ok b)

theorem runEvs_stuck {env : Env} {go : St → Nat → St × Except Err Nat} (hf : ∀ st c, Frame st (go st c).1)
    (hi : ∀ st c, Inv st → Inv (go st c).1) (hg : Stuck env go) (S : Nat → Prop) : ∀ evs st, Inv st → Closed env S st →
    (∀ x, S x → Dict.get? (runEvs go st evs).1.builders x = Dict.get? st.builders x) ∧
    ((∃ d, Ev.child d ∈ evs ∧ S d) → ∀ u, (runEvs go st evs).2 ≠ .ok u) := by
  intro evs
  induction evs with
  | nil => intro st _ _; exact ⟨fun _ _ => rfl, by simp⟩
  | cons ev evs ih =>
    intro st hI hc
    cases ev with
    | child c =>
      obtain ⟨g1, g2⟩ := hg S st hI hc c
      have hF := hf st c
      have hI' := hi st c hI
      simp only [runEvs]
      cases hr : go st c with
      | mk st' r =>
        rw [hr] at g1 g2 hF hI'
        cases r with
        | error e => exact ⟨g1, by simp⟩
        | ok b =>
          obtain ⟨i1, i2⟩ := ih st' hI' (hc.frame hF hI g1)
          refine ⟨fun x hx => (i1 x hx).trans (g1 x hx), ?_⟩
          rintro ⟨d, hd, hS⟩ u
          simp only [List.mem_cons, Ev.child.injEq] at hd
          rcases hd with rfl | hd
          · exact absurd rfl (g2 hS b)
          · exact i2 ⟨d, hd, hS⟩ u
    | queue a =>
      simp only [runEvs]
      obtain ⟨i1, i2⟩ := ih { st with queue := st.queue ++ [a], queued := st.queued ++ [a] } hI hc
      refine ⟨i1, ?_⟩
      rintro ⟨d, hd, hS⟩
      simp only [List.mem_cons, reduceCtorEq, false_or] at hd
      exact i2 ⟨d, hd, hS⟩
    | need c =>
      simp only [runEvs]
      cases Dict.get? st.builders c with
      | none => exact ⟨fun _ _ => rfl, by simp⟩
      | some b =>
        obtain ⟨i1, i2⟩ := ih st hI hc
        refine ⟨i1, ?_⟩
        rintro ⟨d, hd, hS⟩
        simp only [List.mem_cons, reduceCtorEq, false_or] at hd
        exact i2 ⟨d, hd, hS⟩
    | fail e => exact ⟨fun _ _ => rfl, by simp [runEvs]⟩

theorem build_stuck_succ {env : Env} {f : Nat} (hi : ∀ st c, Inv st → Inv (build env f st c).1) (hg : Stuck env (build env f)) :
    Stuck env (build env (f + 1)) := by
  intro S st hI hc c
  have hfr := fun st c => (build_frame env f st c).1
  have hchild : S c → ∃ d, Ev.child d ∈ env.events c ∧ S d := by
    intro hS
    obtain ⟨d, hd, he⟩ := hc c hS
    exact ⟨d, he.2, hd⟩
  simp only [build]
  cases hgb : Dict.get? st.builders c with
  | none =>
    simp only
    have hc1 : Closed env S { st with nextB := freshB st + 1, worked := st.worked ++ [c] } := hc
    obtain ⟨i1, i2⟩ := runEvs_stuck hfr hi hg S (env.events c) { st with nextB := freshB st + 1, worked := st.worked ++ [c] } hI hc1
    cases hrun : runEvs (build env f) { st with nextB := freshB st + 1, worked := st.worked ++ [c] } (env.events c) with
    | mk st' r =>
      rw [hrun] at i1 i2
      cases r with
      | error e => exact ⟨i1, by simp⟩
      | ok u =>
        have hnS : ¬ S c := fun hS => i2 (hchild hS) u rfl
        refine ⟨?_, fun hS => absurd hS hnS⟩
        intro x hx
        simp only [prebuilt, Dict.get?_set]
        rw [if_neg (by rintro rfl; exact hnS hx)]
        exact i1 x hx
  | some b =>
    simp only
    split
    · have hc1 : Closed env S { st with worked := st.worked ++ [c] } := hc
      obtain ⟨i1, i2⟩ := runEvs_stuck hfr hi hg S (env.events c) { st with worked := st.worked ++ [c] } hI hc1
      cases hrun : runEvs (build env f) { st with worked := st.worked ++ [c] } (env.events c) with
      | mk st' r =>
        rw [hrun] at i1 i2
        cases r with
        | error e => exact ⟨i1, by simp⟩
        | ok u => exact ⟨i1, fun hS => absurd rfl (i2 (hchild hS) u)⟩
    · rename_i hcond
      refine ⟨fun _ _ => rfl, ?_⟩
      intro hS
      obtain ⟨d, -, he⟩ := hc c hS
      exfalso
      refine he.1 ⟨b, hgb, ?_⟩
      by_cases h1 : b ∈ st.active
      · exact Or.inl h1
      · right
        intro h2
        exact hcond ⟨h1, h2⟩

theorem head_of_transGen {α : Type} {r : α → α → Prop} {x k : α} (h : TransGen r x k) : ∃ y, r x y ∧ (y = k ∨ TransGen r y k) := by
  induction h with
  | single e => exact ⟨_, e, Or.inl rfl⟩
  | tail p e ih =>
    obtain ⟨y, hy, hy2⟩ := ih
    refine ⟨y, hy, Or.inr ?_⟩
    rcases hy2 with hy2 | hy2
    · subst hy2; exact TransGen.single e
    · exact TransGen.tail hy2 e

theorem transGen_mono_on {α : Type} {r r' : α → α → Prop} {k : α}
    (hr : ∀ a b, TransGen r a k → r a b → r' a b) {x y : α} (h : TransGen r x y) (hy : y = k ∨ TransGen r y k) : TransGen r' x y := by
  induction h with
  | single e =>
    refine TransGen.single (hr _ _ ?_ e)
    rcases hy with hy | hy
    · subst hy; exact TransGen.single e
    · exact TransGen.trans (TransGen.single e) hy
  | @tail b c p e ih =>
    have hb : TransGen r b k := by
      rcases hy with hy | hy
      · subst hy; exact TransGen.single e
      · exact TransGen.trans (TransGen.single e) hy
    exact TransGen.tail (ih (Or.inr hb)) (hr _ _ hb e)

/-- the elements of a cycle through `k` -/
theorem closed_of_cycle {α : Type} {r : α → α → Prop} {k : α} (h : TransGen r k k) :
    ∀ x, (x = k ∨ TransGen r k x) ∧ TransGen r x k → ∃ y, ((y = k ∨ TransGen r k y) ∧ TransGen r y k) ∧ r x y := by
  rintro x ⟨h1, h2⟩
  obtain ⟨y, hy, hyk⟩ := head_of_transGen h2
  refine ⟨y, ⟨Or.inr ?_, ?_⟩, hy⟩
  · rcases h1 with h1 | h1
    · subst h1; exact TransGen.single hy
    · exact TransGen.tail h1 hy
  · rcases hyk with hyk | hyk
    · subst hyk; exact h
    · exact hyk

/-- a container that needs itself is never built -/
theorem cycle_stuck {env : Env} {go : St → Nat → St × Except Err Nat} (hg : Stuck env go) {st : St} (hI : Inv st) {c : Nat}
    (h : TransGen (Edge env st) c c) : ∀ b, (go st c).2 ≠ .ok b :=
  (hg _ st hI (closed_of_cycle h) c).2 ⟨Or.inl rfl, h⟩

/-- `K` contains only containers that need the children among `evs`, and this stays so while they are not built -/
def Above (env : Env) (K : Nat → Prop) (st : St) (evs : List Ev) : Prop := ∀ d, Ev.child d ∈ evs → ∀ st1, Frame st st1 →
  (∀ x, K x → Dict.get? st1.builders x = Dict.get? st.builders x) → ∀ x, K x → TransGen (Edge env st1) x d

theorem Above.step {env : Env} {K : Nat → Prop} {st st' : St} {ev : Ev} {evs : List Ev} (h : Above env K st (ev :: evs))
    (hf : Frame st st') (hs : ∀ x, K x → Dict.get? st'.builders x = Dict.get? st.builders x) : Above env K st' evs := by
  intro d hd st1 hf1 hs1
  exact h d (List.mem_cons_of_mem _ hd) st1 (hf.trans hf1) (fun x hx => (hs1 x hx).trans (hs x hx))

/-- what is above the children of a container is the container itself and what needs it -/
theorem above_self {env : Env} {st st0 : St} (hI : Inv st) (h0 : Frame st st0) (hb : st0.builders = st.builders) {c : Nat}
    (hp : ¬ Done st c) : Above env (fun x => x = c ∨ TransGen (Edge env st) x c) st0 (env.events c) := by
  intro d hd st1 hf1 hs1 x hx
  have hF := h0.trans hf1
  have hs : ∀ x, (x = c ∨ TransGen (Edge env st) x c) → Dict.get? st1.builders x = Dict.get? st.builders x := by
    intro x hx; rw [hs1 x hx, hb]
  have hcd : Edge env st1 c d := ⟨hF.pend hI (hs c (Or.inl rfl)) hp, hd⟩
  rcases hx with rfl | hx
  · exact TransGen.single hcd
  · exact TransGen.tail (transGen_mono_on (fun a b ha he => hF.edge hI (hs a (Or.inr ha)) he) hx (Or.inl rfl)) hcd

theorem runEvs_inv {env : Env} {go : St → Nat → St × Except Err Nat} (hf : ∀ st c, Frame st (go st c).1)
    (hgo : ∀ st c, Inv st → Inv (go st c).1 ∧
      ∀ x, TransGen (Edge env st) x c → Dict.get? (go st c).1.builders x = Dict.get? st.builders x) (K : Nat → Prop) :
    ∀ evs st, Inv st → Above env K st evs → Inv (runEvs go st evs).1 ∧
      ∀ x, K x → Dict.get? (runEvs go st evs).1.builders x = Dict.get? st.builders x := by
  intro evs
  induction evs with
  | nil => intro st hI _; exact ⟨hI, fun _ _ => rfl⟩
  | cons ev evs ih =>
    intro st hI hK
    cases ev with
    | child c =>
      obtain ⟨g1, g2⟩ := hgo st c hI
      have hF := hf st c
      have hs : ∀ x, K x → Dict.get? (go st c).1.builders x = Dict.get? st.builders x := fun x hx =>
        g2 x (hK c (List.mem_cons_self ..) st (Frame.refl st) (fun _ _ => rfl) x hx)
      simp only [runEvs]
      cases hr : go st c with
      | mk st' r =>
        rw [hr] at g1 hs hF
        cases r with
        | error e => exact ⟨g1, hs⟩
        | ok b =>
          obtain ⟨i1, i2⟩ := ih st' g1 (hK.step hF hs)
          exact ⟨i1, fun x hx => (i2 x hx).trans (hs x hx)⟩
    | queue a =>
      simp only [runEvs]
      refine ih { st with queue := st.queue ++ [a], queued := st.queued ++ [a] } hI (hK.step ?_ (fun _ _ => rfl))
      exact ⟨Nat.le_refl _, fun _ _ h => h, fun _ _ h => h, fun _ _ h => h, rfl, rfl, rfl, ⟨[a], rfl, rfl⟩, fun _ h => h, fun _ h => Or.inl h⟩
    | need c =>
      simp only [runEvs]
      cases Dict.get? st.builders c with
      | none => exact ⟨hI, fun _ _ => rfl⟩
      | some b => exact ih st hI (hK.step (Frame.refl st) (fun _ _ => rfl))
    | fail e => exact ⟨hI, fun _ _ => rfl⟩

theorem not_done_of_none {st : St} {c : Nat} (h : Dict.get? st.builders c = none) : ¬ Done st c := by
  rintro ⟨b, hb, -⟩
  rw [h] at hb; cases hb

theorem not_done_of_some {st : St} {c b : Nat} (h : Dict.get? st.builders c = some b) (h1 : b ∉ st.active) (h2 : c ∈ st.modified) :
    ¬ Done st c := by
  rintro ⟨b', hb, hc⟩
  rw [h] at hb
  simp only [Option.some.injEq] at hb
  subst hb
  rcases hc with hc | hc
  · exact h1 hc
  · exact hc h2

/-- building keeps the tables inverse to each other and leaves alone what needs the container; containers on a cycle are never built -/
theorem build_main (env : Env) (f : Nat) :
    (∀ st c, Inv st → Inv (build env f st c).1 ∧
      ∀ x, TransGen (Edge env st) x c → Dict.get? (build env f st c).1.builders x = Dict.get? st.builders x) ∧
    Stuck env (build env f) := by
  induction f with
  | zero =>
    refine ⟨fun st c h => ⟨h, fun _ _ => rfl⟩, ?_⟩
    intro S st _ _ c
    exact ⟨fun _ _ => rfl, by simp [build]⟩
  | succ f ih =>
    have hst := build_stuck_succ (fun st c h => (ih.1 st c h).1) ih.2
    refine ⟨?_, hst⟩
    intro st c hI
    have hcyc := fun h => cycle_stuck hst hI (c := c) h
    have hfr := fun st c => (build_frame env f st c).1
    simp only [build] at hcyc ⊢
    cases hg : Dict.get? st.builders c with
    | none =>
      simp only [hg] at hcyc ⊢
      have hF := (frame_start st c).trans (runEvs_frame (build_frame env f) (env.events c)
        { st with nextB := freshB st + 1, worked := st.worked ++ [c] }).1
      have i2 := (runEvs_frame (build_frame env f) (env.events c) { st with nextB := freshB st + 1, worked := st.worked ++ [c] }).1
      obtain ⟨i1, i3⟩ := runEvs_inv hfr ih.1 (fun x => x = c ∨ TransGen (Edge env st) x c) (env.events c)
        { st with nextB := freshB st + 1, worked := st.worked ++ [c] } hI (above_self hI (frame_start st c) rfl (not_done_of_none hg))
      cases hrun : runEvs (build env f) { st with nextB := freshB st + 1, worked := st.worked ++ [c] } (env.events c) with
      | mk st' r =>
        rw [hrun] at i1 i2 i3 hF
        simp only [hrun] at hcyc
        cases r with
        | error e => exact ⟨i1, fun x hx => i3 x (Or.inr hx)⟩
        | ok u =>
          have hbn : Dict.get? st'.containers (freshB st) = none := i2.cont_none _ (Nat.lt_succ_self _) (freshB_none st)
          have hcn : Dict.get? st'.builders c = none := (i3 c (Or.inl rfl)).trans hg
          refine ⟨i1.prebuilt hcn hbn, ?_⟩
          intro x hx
          simp only [prebuilt, Dict.get?_set]
          by_cases hxc : x = c
          · subst hxc
            exact absurd rfl (hcyc hx _)
          · rw [if_neg hxc]
            exact i3 x (Or.inr hx)
    | some b =>
      simp only [hg] at hcyc ⊢
      split
      · rename_i hcond
        obtain ⟨i1, i3⟩ := runEvs_inv hfr ih.1 (fun x => x = c ∨ TransGen (Edge env st) x c) (env.events c)
          { st with worked := st.worked ++ [c] } hI (above_self hI (frame_again st c) rfl (not_done_of_some hg hcond.1 hcond.2))
        cases hrun : runEvs (build env f) { st with worked := st.worked ++ [c] } (env.events c) with
        | mk st' r =>
          rw [hrun] at i1 i3
          cases r with
          | error e => exact ⟨i1, fun x hx => i3 x (Or.inr hx)⟩
          | ok u => exact ⟨i1, fun x hx => i3 x (Or.inr hx)⟩
      · exact ⟨hI, fun _ _ => rfl⟩

theorem build_inv (env : Env) (f : Nat) (st : St) (c : Nat) (h : Inv st) : Inv (build env f st c).1 := ((build_main env f).1 st c h).1

/-- a container whose mapper raised is not registered -/
theorem build_error (env : Env) (f : Nat) (st : St) (c : Nat) (e : Err) (hI : Inv st) (hn : Dict.get? st.builders c = none)
    (h : (build env f st c).2 = .error e) : Dict.get? (build env f st c).1.builders c = none := by
  cases f with
  | zero => exact hn
  | succ f =>
    simp only [build, hn] at h ⊢
    have i3 := (runEvs_inv (fun st c => (build_frame env f st c).1) (build_main env f).1 (fun x => x = c ∨ TransGen (Edge env st) x c) (env.events c)
        { st with nextB := freshB st + 1, worked := st.worked ++ [c] } hI (above_self hI (frame_start st c) rfl (not_done_of_none hn))).2 c (Or.inl rfl)
    cases hrun : runEvs (build env f) { st with nextB := freshB st + 1, worked := st.worked ++ [c] } (env.events c) with
    | mk st' r =>
      rw [hrun] at h i3
      cases r with
      | error e' => exact i3.trans hn
      | ok u => simp at h

theorem script_inv (env : Env) (f : Nat) (evs : List Ev) (st : St) (h : Inv st) : Inv (runEvs (build env f) st evs).1 :=
  (runEvs_inv (fun st c => (build_frame env f st c).1) (build_main env f).1 (fun _ => False) evs st h
    (fun _ _ _ _ _ _ hx => hx.elim)).1

theorem addRefs_inv (env : Env) (f n : Nat) : ∀ st, Inv st → Inv (addRefs env f n st).1 := by
  induction n with
  | zero => intro st h; exact h
  | succ n ih =>
    intro st h
    simp only [addRefs]
    split
    · exact h
    · rename_i a q hq
      have i1 := script_inv env f (env.script a) { st with queue := q, ran := st.ran ++ [a] } h
      cases hrun : runEvs (build env f) { st with queue := q, ran := st.ran ++ [a] } (env.script a) with
      | mk st' r =>
        rw [hrun] at i1
        cases r with
        | error e => exact i1
        | ok u => exact ih st' i1

/-! ### Constructing -/

/-- what `construct` changes -/
structure CFrame (st st' : St) : Prop where
  keep : ∀ c b, Dict.get? st.builders c = some b → Dict.get? st'.builders c = some b
  keepC : ∀ b c, Dict.get? st.containers b = some c → Dict.get? st'.containers b = some c
  queue : st'.queue = st.queue ∧ st'.queued = st.queued ∧ st'.ran = st.ran

theorem CFrame.refl (st : St) : CFrame st st := ⟨fun _ _ h => h, fun _ _ h => h, ⟨rfl, rfl, rfl⟩⟩

theorem CFrame.trans {a b c : St} (h1 : CFrame a b) (h2 : CFrame b c) : CFrame a c :=
  ⟨fun c b h => h2.keep c b (h1.keep c b h), fun b c h => h2.keepC b c (h1.keepC b c h),
    ⟨h2.queue.1.trans h1.queue.1, h2.queue.2.1.trans h1.queue.2.1, h2.queue.2.2.trans h1.queue.2.2⟩⟩

/-- constructing from `b` is certain to construct from `d` first -/
def CEdge (env : Env) (st : St) (b d : Nat) : Prop := Dict.get? st.containers b = none ∧ d ∈ env.parts b

def CClosed (env : Env) (S : Nat → Prop) (st : St) : Prop := ∀ b, S b → ∃ d, S d ∧ CEdge env st b d

theorem CClosed.same {env : Env} {S : Nat → Prop} {st st' : St}
    (hs : ∀ x, S x → Dict.get? st'.containers x = Dict.get? st.containers x) (hc : CClosed env S st) : CClosed env S st' := by
  intro b hb
  obtain ⟨d, hd, he⟩ := hc b hb
  exact ⟨d, hd, (hs b hb).trans he.1, he.2⟩

def CStuck (env : Env) (go : St → Nat → St × Except Err Nat) : Prop := ∀ (S : Nat → Prop) st, CClosed env S st → ∀ b,
  (∀ x, S x → Dict.get? (go st b).1.containers x = Dict.get? st.containers x) ∧ (S b → ∀ c, (go st b).2 ≠ .ok c)

theorem runParts_stuck {env : Env} {go : St → Nat → St × Except Err Nat} (hg : CStuck env go) (S : Nat → Prop) : ∀ bs st, CClosed env S st →
    (∀ x, S x → Dict.get? (runParts go st bs).1.containers x = Dict.get? st.containers x) ∧
    ((∃ d ∈ bs, S d) → ∀ u, (runParts go st bs).2 ≠ .ok u) := by
  intro bs
  induction bs with
  | nil => intro st _; exact ⟨fun _ _ => rfl, by simp⟩
  | cons b bs ih =>
    intro st hc
    obtain ⟨g1, g2⟩ := hg S st hc b
    simp only [runParts]
    cases hr : go st b with
    | mk st' r =>
      rw [hr] at g1 g2
      cases r with
      | error e => exact ⟨g1, by simp⟩
      | ok c =>
        obtain ⟨i1, i2⟩ := ih st' (hc.same g1)
        refine ⟨fun x hx => (i1 x hx).trans (g1 x hx), ?_⟩
        rintro ⟨d, hd, hS⟩ u
        rcases List.mem_cons.1 hd with rfl | hd
        · exact absurd rfl (g2 hS c)
        · exact i2 ⟨d, hd, hS⟩ u

theorem construct_stuck (env : Env) (f : Nat) : CStuck env (construct env f) := by
  induction f with
  | zero =>
    intro S st _ b
    exact ⟨fun _ _ => rfl, by simp [construct]⟩
  | succ f ih =>
    intro S st hc b
    simp only [construct]
    cases hg : Dict.get? st.containers b with
    | some c =>
      refine ⟨fun _ _ => rfl, ?_⟩
      intro hS
      obtain ⟨d, -, he⟩ := hc b hS
      rw [he.1] at hg; cases hg
    | none =>
      simp only
      obtain ⟨i1, i2⟩ := runParts_stuck ih S (env.parts b) st hc
      cases hrun : runParts (construct env f) st (env.parts b) with
      | mk st' r =>
        rw [hrun] at i1 i2
        cases r with
        | error e => exact ⟨i1, by simp⟩
        | ok u =>
          have hnS : ¬ S b := by
            intro hS
            obtain ⟨d, hd, he⟩ := hc b hS
            exact i2 ⟨d, he.2, hd⟩ u rfl
          simp only
          cases env.broken b with
          | some e => exact ⟨i1, by simp⟩
          | none =>
            refine ⟨?_, fun hS => absurd hS hnS⟩
            intro x hx
            simp only [prebuilt, Dict.get?_set]
            rw [if_neg (by rintro rfl; exact hnS hx)]
            exact i1 x hx

theorem runParts_ok {env : Env} {go : St → Nat → St × Except Err Nat}
    (hgo : ∀ st b, CFrame st (go st b).1 ∧ (Inv st → Inv (go st b).1) ∧
      ∀ x, TransGen (CEdge env st) x b → Dict.get? (go st b).1.containers x = Dict.get? st.containers x) (K : Nat → Prop) :
    ∀ bs st, (∀ d ∈ bs, ∀ st1, (∀ x, K x → Dict.get? st1.containers x = Dict.get? st.containers x) → ∀ x, K x → TransGen (CEdge env st1) x d) →
      CFrame st (runParts go st bs).1 ∧ (Inv st → Inv (runParts go st bs).1) ∧
      ∀ x, K x → Dict.get? (runParts go st bs).1.containers x = Dict.get? st.containers x := by
  intro bs
  induction bs with
  | nil => intro st _; exact ⟨CFrame.refl _, fun h => h, fun _ _ => rfl⟩
  | cons b bs ih =>
    intro st hK
    obtain ⟨g1, g2, g3⟩ := hgo st b
    have hs : ∀ x, K x → Dict.get? (go st b).1.containers x = Dict.get? st.containers x := fun x hx =>
      g3 x (hK b (List.mem_cons_self ..) st (fun _ _ => rfl) x hx)
    simp only [runParts]
    cases hg : go st b with
    | mk st' r =>
      rw [hg] at g1 g2 hs
      cases r with
      | error e => exact ⟨g1, g2, hs⟩
      | ok c =>
        obtain ⟨i1, i2, i3⟩ := ih st' (fun d hd st1 hs1 => hK d (List.mem_cons_of_mem _ hd) st1 (fun x hx => (hs1 x hx).trans (hs x hx)))
        exact ⟨g1.trans i1, fun h => i2 (g2 h), fun x hx => (i3 x hx).trans (hs x hx)⟩

theorem construct_ok (env : Env) (f : Nat) : ∀ st b,
    (CFrame st (construct env f st b).1 ∧ (Inv st → Inv (construct env f st b).1) ∧
      ∀ x, TransGen (CEdge env st) x b → Dict.get? (construct env f st b).1.containers x = Dict.get? st.containers x) ∧
      ∀ c, (construct env f st b).2 = .ok c → Dict.get? (construct env f st b).1.containers b = some c := by
  induction f with
  | zero => intro st b; exact ⟨⟨CFrame.refl _, fun h => h, fun _ _ => rfl⟩, by simp [construct]⟩
  | succ f ih =>
    intro st b
    have hcyc : TransGen (CEdge env st) b b → ∀ c, (construct env (f + 1) st b).2 ≠ .ok c := fun h =>
      (construct_stuck env (f + 1) _ st (closed_of_cycle h) b).2 ⟨Or.inl rfl, h⟩
    simp only [construct] at hcyc ⊢
    cases hg : Dict.get? st.containers b with
    | some c =>
      refine ⟨⟨⟨fun _ _ h => h, fun _ _ h => h, ⟨rfl, rfl, rfl⟩⟩, fun h => h, fun _ _ => rfl⟩, ?_⟩
      intro c' h
      simp only [Except.ok.injEq] at h
      subst h; exact hg
    | none =>
      simp only [hg] at hcyc ⊢
      obtain ⟨i1, i2, i3⟩ := runParts_ok (fun st b => (ih st b).1) (fun x => x = b ∨ TransGen (CEdge env st) x b) (env.parts b) st
        (by
          intro d hd st1 hs1 x hx
          have hbd : CEdge env st1 b d := ⟨(hs1 b (Or.inl rfl)).trans hg, hd⟩
          rcases hx with rfl | hx
          · exact TransGen.single hbd
          · exact TransGen.tail (transGen_mono_on (fun a c ha he => ⟨(hs1 a (Or.inr ha)).trans he.1, he.2⟩) hx (Or.inl rfl)) hbd)
      cases hrun : runParts (construct env f) st (env.parts b) with
      | mk st' r =>
        rw [hrun] at i1 i2 i3
        simp only [hrun] at hcyc
        cases r with
        | error e => exact ⟨⟨i1, i2, fun x hx => i3 x (Or.inr hx)⟩, by simp⟩
        | ok u =>
          simp only at hcyc ⊢
          cases hbr : env.broken b with
          | some e => exact ⟨⟨i1, i2, fun x hx => i3 x (Or.inr hx)⟩, by simp⟩
          | none =>
            simp only [hbr] at hcyc ⊢
            have hbn : Dict.get? st'.containers b = none := (i3 b (Or.inl rfl)).trans hg
            have hcn : Dict.get? st'.builders (freshC st') = none := freshC_none st'
            refine ⟨⟨?_, ?_, ?_⟩, ?_⟩
            · refine i1.trans ⟨?_, ?_, ⟨rfl, rfl, rfl⟩⟩
              · intro c' b' h
                simp only [prebuilt, Dict.get?_set]
                rw [if_neg (by rintro rfl; rw [hcn] at h; simp at h)]
                exact h
              · intro b' c' h
                simp only [prebuilt, Dict.get?_set]
                rw [if_neg (by rintro rfl; rw [hbn] at h; simp at h)]
                exact h
            · intro h
              exact Inv.prebuilt (st := { st' with nextC := freshC st' + 1 }) (i2 h) hcn hbn
            · intro x hx
              simp only [prebuilt, Dict.get?_set]
              by_cases hxb : x = b
              · subst hxb
                exact absurd rfl (hcyc hx _)
              · rw [if_neg hxb]
                exact i3 x (Or.inr hx)
            · intro c h
              simp only [Except.ok.injEq] at h
              subst h
              simp [prebuilt]

theorem Inv.del {st : St} (h : Inv st) {c b : Nat} (hcb : Dict.get? st.builders c = some b) :
    Inv { st with builders := Dict.del st.builders c, containers := Dict.del st.containers b } := by
  intro c' b'
  simp only
  by_cases h1 : c' = c
  · subst h1
    rw [Dict.get?_del_self]
    by_cases h2 : b' = b
    · subst h2; rw [Dict.get?_del_self]; simp
    · rw [Dict.get?_del_ne h2, ← h, hcb]
      simp; omega
  · rw [Dict.get?_del_ne h1]
    by_cases h2 : b' = b
    · subst h2
      rw [Dict.get?_del_self, h, (h c b').1 hcb]
      simp; omega
    · rw [Dict.get?_del_ne h2]; exact h c' b'

theorem purgeLoop_queue (cs : List Nat) : ∀ st, (purgeLoop st cs).1.ran = st.ran ∧
    (purgeLoop st cs).1.queue = st.queue ∧ (purgeLoop st cs).1.queued = st.queued := by
  induction cs with
  | nil => intro st; exact ⟨rfl, rfl, rfl⟩
  | cons c cs ih =>
    intro st
    simp only [purgeLoop]
    repeat' split
    all_goals first
      | exact ih _
      | exact ⟨rfl, rfl, rfl⟩

theorem purgeLoop_ok (cs : List Nat) : ∀ st, Inv st → Inv (purgeLoop st cs).1 ∧ (purgeLoop st cs).1.ran = st.ran ∧
    (purgeLoop st cs).1.queue = st.queue ∧ (purgeLoop st cs).1.queued = st.queued := by
  induction cs with
  | nil => intro st h; exact ⟨h, rfl, rfl, rfl⟩
  | cons c cs ih =>
    intro st hI
    simp only [purgeLoop]
    split
    · cases hg : Dict.get? st.builders c with
      | none => exact ⟨hI, rfl, rfl, rfl⟩
      | some b =>
        simp only
        have hb : Dict.has st.containers b = true := by
          rw [Dict.has, (hI c b).1 hg]; rfl
        rw [if_pos hb]
        exact ih _ (hI.del hg)
    · exact ih st hI

/-! ### Which mappers run -/

/-- no container is a descendant of itself -/
def Acyclic (env : Env) : Prop := ∀ c, ¬ TransGen (fun c d => Ev.child d ∈ env.events c) c c

theorem edge_child {env : Env} {st : St} {x y : Nat} (h : TransGen (Edge env st) x y) :
    TransGen (fun c d => Ev.child d ∈ env.events c) x y := by
  induction h with
  | single e => exact TransGen.single e.2
  | tail _ e ih => exact TransGen.tail ih e.2

/-- the mappers run between two states: none for a container that is done; if nothing raised, or there are no cycles, at most one for a
container without a builder, which is then done if nothing raised, and none for the containers in `K` -/
structure WFrame (env : Env) (K : Nat → Prop) (st st' : St) (ok : Bool) : Prop where
  work : ∃ new, st'.worked = st.worked ++ new ∧ (∀ c, Done st c → c ∉ new) ∧
    (ok = true ∨ Acyclic env → (∀ c, K c → c ∉ new) ∧ ∀ c, Dict.get? st.builders c = none → new.count c ≤ 1) ∧
    (ok = true → ∀ c, Dict.get? st.builders c = none → (c ∉ new ∧ Dict.get? st'.builders c = none) ∨ Done st' c)

theorem WFrame.refl (env : Env) (K : Nat → Prop) (st : St) (ok : Bool) : WFrame env K st st ok :=
  ⟨[], by simp, by simp, by simp, fun _ c h => Or.inl ⟨by simp, h⟩⟩

theorem WFrame.trans {env : Env} {K : Nat → Prop} {a b c : St} {ok : Bool} (hf : ∀ c, Done a c → Done b c)
    (hf2 : ∀ x, Done b x → Done c x)
    (h1 : WFrame env K a b true) (h2 : WFrame env K b c ok) : WFrame env K a c ok := by
  obtain ⟨n1, e1, d1, g1, o1⟩ := h1.work
  obtain ⟨n2, e2, d2, g2, o2⟩ := h2.work
  obtain ⟨r1, k1⟩ := g1 (Or.inl rfl)
  refine ⟨n1 ++ n2, by rw [e2, e1, List.append_assoc], ?_, ?_, ?_⟩
  · intro x hx
    simp [d1 x hx, d2 x (hf x hx)]
  · intro hgood
    obtain ⟨r2, k2⟩ := g2 hgood
    refine ⟨?_, ?_⟩
    · intro x hx
      simp [r1 x hx, r2 x hx]
    · intro x hx
      rw [List.count_append]
      rcases o1 rfl x hx with ⟨h, h'⟩ | h
      · have := k2 x h'
        rw [List.count_eq_zero_of_not_mem h]; omega
      · rw [List.count_eq_zero_of_not_mem (d2 x h)]
        exact k1 x hx
  · intro hok x hx
    rcases o1 rfl x hx with ⟨h, h'⟩ | h
    · rcases o2 hok x h' with ⟨h2, h3⟩ | h2
      · exact Or.inl ⟨by simp [h, h2], h3⟩
      · exact Or.inr h2
    · exact Or.inr (hf2 x h)

theorem WFrame.mono {env : Env} {K K' : Nat → Prop} (hK : ∀ x, K' x → K x) {a b : St} {ok : Bool} (h : WFrame env K a b ok) : WFrame env K' a b ok := by
  obtain ⟨n1, e1, d1, g1, o1⟩ := h.work
  exact ⟨n1, e1, d1, fun hg => ⟨fun c hc => (g1 hg).1 c (hK c hc), (g1 hg).2⟩, o1⟩

def isOk {α : Type} : Except Err α → Bool
  | .ok _ => true
  | .error _ => false

theorem runEvs_work {env : Env} {go : St → Nat → St × Except Err Nat}
    (hf : ∀ st c, Frame st (go st c).1 ∧ ∀ b, (go st c).2 = .ok b → Dict.get? (go st c).1.builders c = some b)
    (hgo : ∀ st c, Inv st → Inv (go st c).1 ∧
      ∀ x, TransGen (Edge env st) x c → Dict.get? (go st c).1.builders x = Dict.get? st.builders x)
    (hgw : ∀ st c, Inv st → WFrame env (fun x => TransGen (Edge env st) x c) st (go st c).1 (isOk (go st c).2)) (K : Nat → Prop) :
    ∀ evs st, Inv st → Above env K st evs → WFrame env K st (runEvs go st evs).1 (isOk (runEvs go st evs).2) := by
  intro evs
  induction evs with
  | nil => intro st _ h; exact WFrame.refl _ _ _ _
  | cons ev evs ih =>
    intro st hI hK
    cases ev with
    | child c =>
      obtain ⟨g2, g3⟩ := hf st c
      obtain ⟨g1, gs⟩ := hgo st c hI
      have w := hgw st c hI
      have hup := hK c (List.mem_cons_self ..) st (Frame.refl st) (fun _ _ => rfl)
      have hs : ∀ x, K x → Dict.get? (go st c).1.builders x = Dict.get? st.builders x := fun x hx => gs x (hup x hx)
      simp only [runEvs]
      cases hg : go st c with
      | mk st' r =>
        rw [hg] at g1 g2 g3 w hs
        have w' : WFrame env K st st' (isOk r) := w.mono hup
        cases r with
        | error e => exact w'
        | ok b =>
          have i2 := (runEvs_frame hf evs st').1
          exact WFrame.trans (fun c h => g2.done h) (fun c h => i2.done h) w' (ih st' g1 (hK.step g2 hs))
    | queue a =>
      simp only [runEvs]
      exact ⟨(ih { st with queue := st.queue ++ [a], queued := st.queued ++ [a] } hI (hK.step
        ⟨Nat.le_refl _, fun _ _ h => h, fun _ _ h => h, fun _ _ h => h, rfl, rfl, rfl, ⟨[a], rfl, rfl⟩, fun _ h => h, fun _ h => Or.inl h⟩
        (fun _ _ => rfl))).work⟩
    | need c =>
      simp only [runEvs]
      cases hg : Dict.get? st.builders c with
      | none => exact WFrame.refl _ _ _ _
      | some b => exact ih st hI (hK.step (Frame.refl st) (fun _ _ => rfl))
    | fail e => exact WFrame.refl _ _ _ _

theorem build_work (env : Env) (f : Nat) : ∀ st c, Inv st →
    WFrame env (fun x => TransGen (Edge env st) x c) st (build env f st c).1 (isOk (build env f st c).2) := by
  induction f with
  | zero => intro st c h; exact WFrame.refl _ _ _ _
  | succ f ih =>
    intro st c hI
    have hno : isOk (build env (f + 1) st c).2 = true ∨ Acyclic env → ∀ x, TransGen (Edge env st) x c → x ≠ c := by
      rintro hgood x hx rfl
      rcases hgood with h | h
      · have := cycle_stuck (build_main env (f + 1)).2 hI hx
        cases hr : (build env (f + 1) st x).2 with
        | ok b => exact this b hr
        | error e => rw [hr] at h; cases h
      · exact h x (edge_child hx)
    simp only [build] at hno ⊢
    cases hg : Dict.get? st.builders c with
    | none =>
      simp only [hg] at hno ⊢
      have w := runEvs_work (build_frame env f) (build_main env f).1 ih (fun x => x = c ∨ TransGen (Edge env st) x c) (env.events c)
        { st with nextB := freshB st + 1, worked := st.worked ++ [c] } hI (above_self hI (frame_start st c) rfl (not_done_of_none hg))
      cases hrun : runEvs (build env f) { st with nextB := freshB st + 1, worked := st.worked ++ [c] } (env.events c) with
      | mk st' r =>
        rw [hrun] at w
        simp only [hrun] at hno
        obtain ⟨new, e, d1, g1, o1⟩ := w.work
        have key : isOk r = true ∨ Acyclic env → ∀ x, Dict.get? st.builders x = none → ([c] ++ new).count x ≤ 1 := by
          intro hgood x hx
          obtain ⟨r1, k1⟩ := g1 hgood
          rw [List.count_append]
          by_cases hxc : x = c
          · subst hxc
            rw [List.count_eq_zero_of_not_mem (r1 x (Or.inl rfl))]; simp
          · have := k1 x hx
            rw [List.count_eq_zero_of_not_mem (by simpa using hxc)]; omega
        have kd : ∀ x, Done st x → x ∉ [c] ++ new := by
          intro x hx
          have h1 := d1 x hx
          have h2 : x ≠ c := by
            rintro rfl
            exact not_done_of_none hg hx
          simp [h1, h2]
        cases r with
        | error er =>
          refine ⟨[c] ++ new, by rw [e]; simp, kd, fun hgood => ⟨?_, key hgood⟩, by simp [isOk]⟩
          intro x hx
          have h1 := (g1 hgood).1 x (Or.inr hx)
          have h2 := hno hgood x hx
          simp [h1, h2]
        | ok u =>
          refine ⟨[c] ++ new, by simp only [prebuilt]; rw [e]; simp, kd, fun hgood => ⟨?_, key (Or.inl rfl)⟩, ?_⟩
          · intro x hx
            have h1 := (g1 (Or.inl rfl)).1 x (Or.inr hx)
            have h2 := hno (Or.inl rfl) x hx
            simp [h1, h2]
          · intro _ x hx
            by_cases hxc : x = c
            · subst hxc
              exact Or.inr ⟨freshB st, by simp [prebuilt], Or.inl (by simp)⟩
            · rcases o1 rfl x hx with ⟨h1, h2⟩ | ⟨b, h1, h2⟩
              · refine Or.inl ⟨by simp [hxc, h1], ?_⟩
                simp only [prebuilt, Dict.get?_set]
                rw [if_neg hxc]; exact h2
              · refine Or.inr ⟨b, ?_, ?_⟩
                · simp only [prebuilt, Dict.get?_set]
                  rw [if_neg hxc]; exact h1
                · rcases h2 with h2 | h2
                  · exact Or.inl (List.mem_cons_of_mem _ h2)
                  · exact Or.inr h2
    | some b =>
      simp only [hg] at hno ⊢
      split
      · rename_i hcond
        rw [if_pos hcond] at hno
        have w := runEvs_work (build_frame env f) (build_main env f).1 ih (fun x => x = c ∨ TransGen (Edge env st) x c) (env.events c)
          { st with worked := st.worked ++ [c] } hI (above_self hI (frame_again st c) rfl (not_done_of_some hg hcond.1 hcond.2))
        cases hrun : runEvs (build env f) { st with worked := st.worked ++ [c] } (env.events c) with
        | mk st' r =>
          rw [hrun] at w
          simp only [hrun] at hno
          obtain ⟨new, e, d1, g1, o1⟩ := w.work
          have kd : ∀ x, Done st x → x ∉ [c] ++ new := by
            intro x hx
            have h1 := d1 x hx
            have h2 : x ≠ c := by
              rintro rfl
              exact not_done_of_some hg hcond.1 hcond.2 hx
            simp [h1, h2]
          have ne : ∀ x, Dict.get? st.builders x = none → x ≠ c := by
            rintro x hx rfl
            rw [hg] at hx; simp at hx
          have key : isOk r = true ∨ Acyclic env → ∀ x, Dict.get? st.builders x = none → ([c] ++ new).count x ≤ 1 := by
            intro hgood x hx
            rw [List.count_append, List.count_eq_zero_of_not_mem (by simpa using ne x hx)]
            have := (g1 hgood).2 x hx; omega
          cases r with
          | error er =>
            refine ⟨[c] ++ new, by rw [e]; simp, kd, fun hgood => ⟨?_, key hgood⟩, by simp [isOk]⟩
            intro x hx
            have h1 := (g1 hgood).1 x (Or.inr hx)
            have h2 := hno hgood x hx
            simp [h1, h2]
          | ok u =>
            refine ⟨[c] ++ new, by rw [e]; simp, kd, fun hgood => ⟨?_, key (Or.inl rfl)⟩, ?_⟩
            · intro x hx
              have h1 := (g1 (Or.inl rfl)).1 x (Or.inr hx)
              have h2 := hno (Or.inl rfl) x hx
              simp [h1, h2]
            · intro _ x hx
              rcases o1 rfl x hx with ⟨h1, h2⟩ | h
              · exact Or.inl ⟨by simp [ne x hx, h1], h2⟩
              · exact Or.inr h
      · exact WFrame.refl _ _ _ _

/-- the queue keeps what is done done -/
theorem addRefs_work (env : Env) (f n : Nat) : ∀ st, Inv st →
    WFrame env (fun _ => False) st (addRefs env f n st).1 (isOk (addRefs env f n st).2) ∧ ∀ c, Done st c → Done (addRefs env f n st).1 c := by
  induction n with
  | zero => intro st h; exact ⟨WFrame.refl _ _ _ _, fun _ h => h⟩
  | succ n ih =>
    intro st hI
    simp only [addRefs]
    split
    · exact ⟨WFrame.refl _ _ _ _, fun _ h => h⟩
    · rename_i a q hq
      have i1 := script_inv env f (env.script a) { st with queue := q, ran := st.ran ++ [a] } hI
      have i2 := (runEvs_frame (build_frame env f) (env.script a) { st with queue := q, ran := st.ran ++ [a] }).1
      have w := runEvs_work (build_frame env f) (build_main env f).1 (build_work env f) (fun _ => False) (env.script a)
        { st with queue := q, ran := st.ran ++ [a] } hI (fun _ _ _ _ _ _ hx => hx.elim)
      cases hrun : runEvs (build env f) { st with queue := q, ran := st.ran ++ [a] } (env.script a) with
      | mk st' r =>
        rw [hrun] at i1 i2 w
        have hd : ∀ c, Done st c → Done st' c := fun c h => i2.done (st := { st with queue := q, ran := st.ran ++ [a] }) h
        have w' : WFrame env (fun _ => False) st st' (isOk r) := ⟨w.work⟩
        cases r with
        | error e => exact ⟨w', hd⟩
        | ok u =>
          obtain ⟨j1, j2⟩ := ih st' i1
          exact ⟨WFrame.trans hd j2 w' j1, fun c h => j2 c (hd c h)⟩

/-- one call keeps the tables inverse to each other; `prebuilt` needs a container and a builder that are not registered -/
theorem step_inv (env : Env) (f n : Nat) (st : St) (op : Op)
    (hp : ∀ c b, op = .prebuilt c b → Dict.get? st.builders c = none ∧ Dict.get? st.containers b = none) (h : Inv st) :
    Inv (step env f n st op) := by
  cases op with
  | build c root =>
    cases root with
    | false => exact build_inv env f st c h
    | true =>
      simp only [step, buildRoot]
      have i1 := build_inv env f { st with active := [] } c h
      cases hb : build env f { st with active := [] } c with
      | mk st' r =>
        rw [hb] at i1
        cases r with
        | error e => exact i1
        | ok b =>
          have j1 := addRefs_inv env f n st' i1
          simp only
          cases ha : addRefs env f n st' with
          | mk st'' r =>
            rw [ha] at j1
            cases r with
            | error e => exact j1
            | ok u => exact j1
  | construct b => exact (construct_ok env f st b).1.2.1 h
  | purge => exact (purgeLoop_ok _ st h).1
  | clear => intro c b; simp [step, clear]
  | touch c flag => exact h
  | prebuilt c b => exact h.prebuilt (hp c b rfl).1 (hp c b rfl).2

end Verif.Manager
