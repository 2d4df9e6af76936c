import Verif.Lemmas.Manager

/-!
# C35, C36, C83, C84, C104, C105: the build manager

`env` is what the mappers do (see the model): any lists of events, also with containers that are their own descendants, where the code
recurses until RecursionError.  `f` and `n` bound the depth of recursion and the length of the queue; the theorems hold for all of them.
-/

namespace Verif.Manager
open Verif

/-- a history in which `prebuilt` is called only for a container and a builder not yet registered -/
def Fresh (env : Env) (f n : Nat) : St → List Op → Prop
  | _, [] => True
  | st, op :: ops => (∀ c b, op = .prebuilt c b → Dict.get? st.builders c = none ∧ Dict.get? st.containers b = none) ∧
    Fresh env f n (step env f n st op) ops

/-- no `purge_outdated` or `clear_cache` -/
def Keeps : Op → Prop
  | .purge => False
  | .clear => False
  | _ => True

theorem foldl_inv (env : Env) (f n : Nat) :
    ∀ ops st, Fresh env f n st ops → Inv st → Inv (ops.foldl (step env f n) st) := by
  intro ops
  induction ops with
  | nil => intro st _ h; exact h
  | cons op ops ih =>
    intro st hf h
    exact ih _ hf.2 (step_inv env f n st op hf.1 h)

theorem inv_empty : Inv .empty := by intro c b; simp [St.empty]

/-- an example of mappers: 0 has children 1 and 2, refers to 3, a child of 2; 5 raises -/
def exEnv : Env :=
  { events := fun c => if c = 0 then [.child 1, .child 2, .queue 7] else if c = 2 then [.child 3] else if c = 5 then [.child 2, .fail .valueError] else []
    script := fun a => if a = 7 then [.need 3, .queue 8] else if a = 8 then [.child 4, .need 4] else []
    parts := fun b => if b = 50 then [51, 52] else []
    broken := fun _ => none }

/-- mappers where 0 contains 1 and 1 contains 0, next to 2; constructing 50 needs 51, which needs 50 -/
def loopEnv : Env :=
  { events := fun c => if c = 0 then [.child 2, .child 1] else if c = 1 then [.child 0] else []
    script := fun _ => []
    parts := fun b => if b = 50 then [51] else if b = 51 then [50] else []
    broken := fun _ => none }

/-- **C35.** After any history of calls, the tables of the manager are inverse to each other: the builder looked up for a container is
the one whose container is that container.  In particular different containers never have the same builder, and constructing from the
builder of a container returns that container. -/
theorem C35_inverse_partial (env : Env) (f n : Nat) (ops : List Op)
    (hf : Fresh env f n .empty ops) (c d b : Nat) (h : getBuilder (run env f n ops) c = some b) :
    (getBuilder (run env f n ops) d = some b → d = c) ∧
    ∀ f', (construct env (f' + 1) (run env f n ops) b).2 = .ok c := by
  have hI := foldl_inv env f n ops .empty hf inv_empty
  unfold getBuilder run at *
  refine ⟨?_, ?_⟩
  · intro h2
    have h1 := (hI c b).1 h
    have h3 := (hI d b).1 h2
    rw [h1] at h3
    simpa using h3.symm
  · intro f'
    simp only [construct, (hI c b).1 h]

example : Fresh exEnv 9 9 .empty [.build 0 true, .prebuilt 20 50, .construct 60, .touch 0 true, .build 0 true, .purge, .build 5 true, .build 0 false] := by
  simp only [Fresh]
  refine ⟨by simp, ?_, by simp, by simp, by simp, by simp, by simp, by simp, trivial⟩
  intro c b h
  simp only [Op.prebuilt.injEq] at h
  obtain ⟨rfl, rfl⟩ := h
  decide

example : getBuilder (run exEnv 9 9 [.build 0 true, .prebuilt 20 50, .construct 60, .touch 0 true, .build 0 true, .purge, .build 5 true, .build 0 false]) 3 = some 4 := by
  decide

/-- **C35.** Once built, a container keeps its builder: as long as the cache is not purged and the user registers no other builder for
it with `prebuilt`, whatever else is built, constructed or registered, the container has the same builder and building it again, if it does
not raise, returns that builder. -/
theorem C35_stable (env : Env) (f n : Nat) (ops more : List Op) (hk : ∀ op ∈ more, Keeps op) (c b : Nat)
    (hp : ∀ b', Op.prebuilt c b' ∉ more) (h : getBuilder (run env f n ops) c = some b) :
    getBuilder (run env f n (ops ++ more)) c = some b ∧
    (∀ b', (build env f (run env f n (ops ++ more)) c).2 = .ok b' → b' = b) ∧
    (∀ b', (buildRoot env f n (run env f n (ops ++ more)) c).2 = .ok b' → b' = b) := by
  have one : ∀ st op, Keeps op → (∀ b', op ≠ .prebuilt c b') →
      Dict.get? st.builders c = some b → Dict.get? (step env f n st op).builders c = some b := by
    intro st op hkp hp hcb
    cases op with
    | build c' root =>
      cases root with
      | false => exact (build_frame env f st c').1.keep c b hcb
      | true =>
        simp only [step, buildRoot]
        have i2 := (build_frame env f { st with active := [] } c').1
        cases hb : build env f { st with active := [] } c' with
        | mk st' r =>
          rw [hb] at i2
          have hk1 := i2.keep c b hcb
          cases r with
          | error e => exact hk1
          | ok b =>
            obtain ⟨j2, -⟩ := addRefs_ok env f n st'
            simp only
            cases ha : addRefs env f n st' with
            | mk st'' r =>
              rw [ha] at j2
              have hk2 := j2.keep _ _ hk1
              cases r with
              | error e => exact hk2
              | ok u => exact hk2
    | construct b' => exact (construct_ok env f st b').1.1.keep c b hcb
    | purge => exact hkp.elim
    | clear => exact hkp.elim
    | touch c' flag => exact hcb
    | prebuilt c' b' =>
      simp only [step, prebuilt, Dict.get?_set]
      rw [if_neg (by rintro rfl; exact hp b' rfl)]
      exact hcb
  have fold : ∀ (more : List Op) st, (∀ op ∈ more, Keeps op) → (∀ b', Op.prebuilt c b' ∉ more) → Dict.get? st.builders c = some b →
      Dict.get? (more.foldl (step env f n) st).builders c = some b := by
    intro more
    induction more with
    | nil => intro st _ _ h; exact h
    | cons op more ih =>
      intro st hkp hfr hcb
      exact ih _ (fun o ho => hkp o (by simp [ho])) (fun b' h => hfr b' (by simp [h]))
        (one st op (hkp op (by simp)) (fun b' h => hfr b' (by simp [h])) hcb)
  have hres : Dict.get? (run env f n (ops ++ more)).builders c = some b := by
    have := fold more _ hk hp h
    rw [run, List.foldl_append]
    exact this
  refine ⟨hres, ?_, ?_⟩
  · intro b' hb'
    obtain ⟨k, r⟩ := build_frame env f (run env f n (ops ++ more)) c
    have h1 := r b' hb'
    have h2 := k.keep c b hres
    rw [h1] at h2
    simpa using h2
  · intro b' hb'
    obtain ⟨i2, i3⟩ := build_frame env f { run env f n (ops ++ more) with active := [] } c
    simp only [buildRoot] at hb'
    cases hb : build env f { run env f n (ops ++ more) with active := [] } c with
    | mk st' r =>
      rw [hb] at hb' i2 i3
      cases r with
      | error e => simp at hb'
      | ok b'' =>
        have h2 := i2.keep c b hres
        rw [i3 b'' rfl] at h2
        simp only at hb'
        cases ha : addRefs env f n st' with
        | mk st'' r =>
          rw [ha] at hb'
          cases r with
          | error e => simp at hb'
          | ok u =>
            simp only [Except.ok.injEq] at hb'
            simp only [Option.some.injEq] at h2
            rw [← hb', h2]

example : getBuilder (run loopEnv 9 9 [.build 0 true, .construct 50, .build 1 false]) 2 = some 2 ∧
    getBuilder (run loopEnv 9 9 [.build 0 true, .construct 50, .build 1 false]) 0 = none := by decide

example : getBuilder (run exEnv 9 9 [.build 0 true]) 2 = some 3 ∧
    getBuilder (run exEnv 9 9 ([.build 0 true] ++ [.touch 2 true, .build 5 true, .construct 60, .build 2 true])) 2 = some 3 := by decide

/-- **C35 (violated by `prebuilt`).** `prebuilt` checks nothing.  Registering one builder for two containers makes `get_builder` return
it for both; registering a second builder for a container leaves the first one behind, still leading to the container, so that
`purge_outdated` of the modified container raises. -/
theorem C35_prebuilt_fails :
    (getBuilder (run exEnv 9 9 [.prebuilt 1 50, .prebuilt 2 50]) 1 = some 50 ∧ getBuilder (run exEnv 9 9 [.prebuilt 1 50, .prebuilt 2 50]) 2 = some 50 ∧
      (construct exEnv 9 (run exEnv 9 9 [.prebuilt 1 50, .prebuilt 2 50]) 50).2 = .ok 2) ∧
    (purge (run exEnv 9 9 [.prebuilt 1 50, .prebuilt 1 51, .touch 1 true])).2 = .error .attributeError := by decide

theorem queue_step (env : Env) (f n : Nat) (st : St) (op : Op)
    (h : st.ran ++ st.queue = st.queued) : (step env f n st op).ran ++ (step env f n st op).queue = (step env f n st op).queued := by
  have key : ∀ st', RFrame st st' → st'.ran ++ st'.queue = st'.queued := by
    intro st' hr
    obtain ⟨new, e1, e2⟩ := hr.log
    rw [e2, e1, h]
  cases op with
  | build c root =>
    cases root with
    | false => exact key _ (build_frame env f st c).1.toR
    | true =>
      simp only [step, buildRoot]
      have i2 := (build_frame env f { st with active := [] } c).1
      cases hb : build env f { st with active := [] } c with
      | mk st' r =>
        rw [hb] at i2
        have i2' : RFrame st st' := ⟨i2.toR.nextB, i2.toR.keep, i2.toR.modified, i2.toR.log, i2.toR.ran⟩
        cases r with
        | error e => exact key _ i2'
        | ok b =>
          obtain ⟨j2, -⟩ := addRefs_ok env f n st'
          simp only
          cases ha : addRefs env f n st' with
          | mk st'' r =>
            rw [ha] at j2
            have := key _ (i2'.trans j2)
            cases r with
            | error e => exact this
            | ok u => exact this
  | construct b =>
    obtain ⟨q1, q2, q3⟩ := (construct_ok env f st b).1.1.queue
    simp only [step, q1, q2, q3, h]
  | purge =>
    obtain ⟨q1, q2, q3⟩ := purgeLoop_queue (Dict.values st.containers) st
    simp only [step, purge, q1, q2, q3, h]
  | clear => exact h
  | touch c flag => exact h
  | prebuilt c b => exact h

/-- **C36.** After any history the calls made are the first of the calls queued, in the order of queueing, the rest is still in the
queue: no queued call is made twice, skipped or overtaken. -/
theorem C36_order (env : Env) (f n : Nat) (ops : List Op) :
    (run env f n ops).ran ++ (run env f n ops).queue = (run env f n ops).queued := by
  have : ∀ (ops : List Op) st, st.ran ++ st.queue = st.queued →
      (ops.foldl (step env f n) st).ran ++ (ops.foldl (step env f n) st).queue = (ops.foldl (step env f n) st).queued := by
    intro ops
    induction ops with
    | nil => intro st h; exact h
    | cons op ops ih =>
      intro st h
      exact ih _ (queue_step env f n st op h)
  exact this ops .empty rfl

example : (run exEnv 9 9 [.build 0 false, .build 4 false]).queue = [7] ∧ (run exEnv 9 9 [.build 0 false, .build 4 true]).ran = [7, 8] := by decide

/-- **C36.** When a root build returns, every call queued by it (also by the queued calls themselves) has been made, once and in
order, and the queue is empty.  The root build also makes the calls left over by earlier builds, before its own. -/
theorem C36_done (env : Env) (f n : Nat) (ops : List Op) (c b : Nat) (h : (buildRoot env f n (run env f n ops) c).2 = .ok b) :
    (buildRoot env f n (run env f n ops) c).1.queue = [] ∧
    (∀ a, Ev.queue a ∈ env.events c → getBuilder (run env f n ops) c = none → a ∈ (buildRoot env f n (run env f n ops) c).1.ran) ∧
    ∃ new, (buildRoot env f n (run env f n ops) c).1.queued = (run env f n ops).queued ++ new ∧
      (buildRoot env f n (run env f n ops) c).1.ran = (run env f n ops).ran ++ (run env f n ops).queue ++ new := by
  have hq := C36_order env f n ops
  generalize run env f n ops = st at *
  simp only [buildRoot] at *
  have i2 := (build_frame env f { st with active := [] } c).1
  have hev : ∀ a, Ev.queue a ∈ env.events c → getBuilder st c = none → ∀ b, (build env f { st with active := [] } c).2 = .ok b →
      a ∈ (build env f { st with active := [] } c).1.queued := by
    intro a ha hn b' hb'
    cases f with
    | zero => simp [build] at hb'
    | succ f =>
      unfold getBuilder at hn
      simp only [build, hn] at hb' ⊢
      have hh := (runEvs_frame (build_frame env f) (env.events c)
        { st with active := [], nextB := freshB { st with active := [] } + 1, worked := st.worked ++ [c] }).2
      cases hrun : runEvs (build env f) { st with active := [], nextB := freshB { st with active := [] } + 1, worked := st.worked ++ [c] } (env.events c) with
      | mk st' r =>
        rw [hrun] at hb' hh
        cases r with
        | error e => simp at hb'
        | ok u => exact (hh rfl).2.2 a ha
  cases hb : build env f { st with active := [] } c with
  | mk st' r =>
    rw [hb] at i2 h hev
    have i2' : RFrame st st' := ⟨i2.toR.nextB, i2.toR.keep, i2.toR.modified, i2.toR.log, i2.toR.ran⟩
    cases r with
    | error e => simp at h
    | ok b0 =>
      obtain ⟨j2, j3⟩ := addRefs_ok env f n st'
      simp only at h ⊢
      cases ha : addRefs env f n st' with
      | mk st'' r =>
        rw [ha] at j2 j3 h
        cases r with
        | error e => simp at h
        | ok u =>
          have hqe := (j3 rfl).1
          simp only at hqe ⊢
          obtain ⟨new, e1, e2⟩ := (i2'.trans j2).log
          rw [hqe, List.append_nil] at e2
          refine ⟨hqe, ?_, new, e1, e2⟩
          intro a hae hn
          obtain ⟨n2, e3, -⟩ := j2.log
          rw [e2, hq, ← e1, e3]
          exact List.mem_append_left _ (hev a hae hn b0 rfl)

example : (buildRoot exEnv 9 9 (run exEnv 9 9 []) 0).2 = .ok 1 ∧ (buildRoot exEnv 9 9 (run exEnv 9 9 []) 0).1.ran = [7, 8] ∧
    (buildRoot exEnv 9 9 (run exEnv 9 9 []) 0).1.queue = [] := by decide

/-- **C83.** During one root build the mapper of a container which had a builder and is not modified does not run; that of a container
that had no builder before runs at most once, if the build returns or no container is its own descendant. -/
theorem C83_once (env : Env) (f n : Nat) (ops : List Op) (hf : Fresh env f n .empty ops) (c : Nat) :
    ∃ new, (buildRoot env f n (run env f n ops) c).1.worked = (run env f n ops).worked ++ new ∧
      ((∃ b, (buildRoot env f n (run env f n ops) c).2 = .ok b) ∨
          (∀ x, ¬ Relation.TransGen (fun c d => Ev.child d ∈ env.events c) x x) →
        ∀ d, getBuilder (run env f n ops) d = none → new.count d ≤ 1) ∧
      (∀ d b, getBuilder (run env f n ops) d = some b → d ∉ (run env f n ops).modified → d ∉ new) := by
  have hI := foldl_inv env f n ops .empty hf inv_empty
  change Inv (run env f n ops) at hI
  generalize run env f n ops = st at *
  unfold getBuilder
  have hI' : Inv { st with active := [] } := hI
  have i1 := build_inv env f { st with active := [] } c hI'
  have i2 := (build_frame env f { st with active := [] } c).1
  have w := (build_work env f { st with active := [] } c hI').mono (K' := fun _ => False) (fun _ h => h.elim)
  simp only [buildRoot]
  cases hb : build env f { st with active := [] } c with
  | mk st' r =>
    rw [hb] at i1 i2 w
    have fin : ∀ st2 ok (P : Prop), WFrame env (fun _ => False) { st with active := [] } st2 ok → (P → ok = true ∨ Acyclic env) →
        ∃ new, st2.worked = st.worked ++ new ∧ (P → ∀ d, Dict.get? st.builders d = none → new.count d ≤ 1) ∧
          (∀ d b, Dict.get? st.builders d = some b → d ∉ st.modified → d ∉ new) := by
      intro st2 ok P hw hP
      obtain ⟨new, e, d1, g1, -⟩ := hw.work
      exact ⟨new, e, fun h => (g1 (hP h)).2, fun d b h1 h2 => d1 d ⟨b, h1, Or.inr h2⟩⟩
    cases r with
    | error e => exact fin _ _ _ w (fun h => h.elim (fun ⟨_, h⟩ => by cases h) Or.inr)
    | ok b0 =>
      obtain ⟨j1, j2⟩ := addRefs_work env f n st' i1
      simp only
      cases ha : addRefs env f n st' with
      | mk st'' r =>
        rw [ha] at j1 j2
        have := WFrame.trans (fun x hx => i2.done hx) j2 w j1
        cases r with
        | error e => exact fin _ _ _ this (fun h => h.elim (fun ⟨_, h⟩ => by cases h) Or.inr)
        | ok u => exact fin st'' _ _ this (fun _ => Or.inl rfl)

example : (buildRoot exEnv 9 9 (run exEnv 9 9 [.build 5 false]) 0).1.worked = [5, 2, 3, 0, 1, 4] := by decide

/-- with a container that contains itself the mappers do run again, until RecursionError -/
example : (buildRoot loopEnv 4 9 (run loopEnv 4 9 []) 0).1.worked = [0, 2, 1, 0, 1] ∧
    (buildRoot loopEnv 4 9 (run loopEnv 4 9 []) 0).2 = .error .runtimeError := by decide

/-- mappers where 1 and 2 share the child 3, which queues the call 7 -/
def sharedEnv : Env :=
  { events := fun c => if c = 0 then [.child 1, .child 2] else if c = 1 then [.child 3] else if c = 2 then [.child 3] else if c = 3 then [.queue 7] else []
    script := fun _ => []
    parts := fun _ => []
    broken := fun _ => none }

/-- **C105 (violated).** A container with a builder from before (read from a file) that was modified since is
built anew each time it is met, as its builder does not become active: its mapper runs twice in one root build and its references
are queued twice.  A new container in the same place is built once. -/
theorem C105_modified_fails :
    (buildRoot sharedEnv 9 9 (run sharedEnv 9 9 [.prebuilt 3 50, .touch 3 true]) 0).1.worked = [0, 1, 3, 2, 3] ∧
    (buildRoot sharedEnv 9 9 (run sharedEnv 9 9 [.prebuilt 3 50, .touch 3 true]) 0).1.ran = [7, 7] ∧
    (buildRoot sharedEnv 9 9 (run sharedEnv 9 9 []) 0).1.worked = [0, 1, 3, 2] := by decide

/-- **C84.** When a root build returns, the targets of all references whose calls it made have builders in the manager.  The calls it
made are all that were queued. -/
theorem C84_targets (env : Env) (f n : Nat) (ops : List Op) (c b : Nat) (h : (buildRoot env f n (run env f n ops) c).2 = .ok b) :
    getBuilder (buildRoot env f n (run env f n ops) c).1 c = some b ∧
    ∀ a, a ∈ (buildRoot env f n (run env f n ops) c).1.ran → a ∉ (run env f n ops).ran → ∀ d, Ev.need d ∈ env.script a →
      (getBuilder (buildRoot env f n (run env f n ops) c).1 d).isSome := by
  generalize run env f n ops = st at *
  unfold getBuilder
  simp only [buildRoot] at *
  obtain ⟨i2, i3⟩ := build_frame env f { st with active := [] } c
  cases hb : build env f { st with active := [] } c with
  | mk st' r =>
    rw [hb] at i2 i3 h
    cases r with
    | error e => simp at h
    | ok b0 =>
      obtain ⟨j2, j3⟩ := addRefs_ok env f n st'
      simp only at h ⊢
      cases ha : addRefs env f n st' with
      | mk st'' r =>
        rw [ha] at j2 j3 h
        cases r with
        | error e => simp at h
        | ok u =>
          simp only [Except.ok.injEq] at h
          subst h
          refine ⟨j2.keep c b0 (i3 b0 rfl), ?_⟩
          intro a har hnr d hd
          rcases (j3 rfl).2 a har with h1 | h1
          · rw [i2.ran] at h1
            exact absurd h1 hnr
          · exact h1 d hd

example : (buildRoot exEnv 9 9 (run exEnv 9 9 []) 0).2 = .ok 1 ∧ getBuilder (buildRoot exEnv 9 9 (run exEnv 9 9 []) 0).1 4 = some 5 := by decide

/-- **C104 (partial).** A container whose own mapper, or that of a descendant, raised is not in the cache afterwards, so building it again
runs its mapper again; the tables of the manager are still inverse to each other.  What is missing: the queued calls, see below. -/
theorem C104_retry_partial (env : Env) (f n : Nat) (ops : List Op) (hf : Fresh env f n .empty ops) (c : Nat) (e : Err)
    (hn : getBuilder (run env f n ops) c = none) (h : (build env f (run env f n ops) c).2 = .error e) :
    getBuilder (build env f (run env f n ops) c).1 c = none ∧
    (∀ f', c ∈ (build env (f' + 1) (build env f (run env f n ops) c).1 c).1.worked) ∧
    ∀ d d' b, getBuilder (build env f (run env f n ops) c).1 d = some b → getBuilder (build env f (run env f n ops) c).1 d' = some b → d = d' := by
  have hI := foldl_inv env f n ops .empty hf inv_empty
  change Inv (run env f n ops) at hI
  generalize run env f n ops = st at *
  unfold getBuilder at *
  have hI' := build_inv env f st c hI
  have hnone := build_error env f st c e hI hn h
  refine ⟨hnone, ?_, ?_⟩
  · intro f'
    generalize (build env f st c).1 = st1 at *
    obtain ⟨new, ew, -⟩ := (runEvs_work (build_frame env f') (build_main env f').1 (build_work env f')
      (fun x => x = c ∨ Relation.TransGen (Edge env st1) x c) (env.events c)
        { st1 with nextB := freshB st1 + 1, worked := st1.worked ++ [c] } hI' (above_self hI' (frame_start st1 c) rfl (not_done_of_none hnone))).work
    simp only [build, hnone]
    cases hrun : runEvs (build env f') { st1 with nextB := freshB st1 + 1, worked := st1.worked ++ [c] } (env.events c) with
    | mk st' r =>
      rw [hrun] at ew
      cases r with
      | error e => simp only at ew ⊢; rw [ew]; simp
      | ok u => simp only [prebuilt] at ew ⊢; rw [ew]; simp
  · intro d d' b h1 h2
    have h1 := (hI' d b).1 h1
    rw [(hI' d' b).1 h2] at h1
    simpa using h1.symm

example : (build exEnv 9 (run exEnv 9 9 []) 5).2 = .error .valueError ∧ getBuilder (build exEnv 9 (run exEnv 9 9 []) 5).1 5 = none ∧
    getBuilder (build exEnv 9 (run exEnv 9 9 []) 5).1 2 = some 2 := by decide

/-- mappers where 0 queues a call and then fails, and 1 is unrelated -/
def badEnv : Env :=
  { events := fun c => if c = 0 then [.queue 7, .fail .valueError] else []
    script := fun a => if a = 7 then [.need 9] else []
    parts := fun _ => []
    broken := fun _ => none }

/-- **C104 (violated).** A root build that raises leaves the calls it queued behind; the next root build, of an
unrelated container, makes them, and raises although building that container alone succeeds. -/
theorem C104_leftover_fails :
    (run badEnv 9 9 [.build 0 true]).queue = [7] ∧
    (buildRoot badEnv 9 9 (run badEnv 9 9 [.build 0 true]) 1).2 = .error .valueError ∧
    (buildRoot badEnv 9 9 (run badEnv 9 9 []) 1).2 = .ok 1 := by decide

/-- mappers where 0 refers to 9, which is built by nobody -/
def danglingEnv : Env :=
  { events := fun c => if c = 0 then [.queue 7] else []
    script := fun a => if a = 7 then [.need 9] else []
    parts := fun _ => []
    broken := fun _ => none }

/-- **C104 (violated).** A root build raises because the target of a reference has no builder.  The user builds the target and repeats
the build: it returns the cached builder, and the call that sets the reference is not made again. -/
theorem C104_lost_fails :
    (buildRoot danglingEnv 9 9 (run danglingEnv 9 9 []) 0).2 = .error .valueError ∧
    (buildRoot danglingEnv 9 9 (run danglingEnv 9 9 [.build 0 true, .build 9 false]) 0).2 = .ok 1 ∧
    (buildRoot danglingEnv 9 9 (run danglingEnv 9 9 [.build 0 true, .build 9 false]) 0).1.ran = (run danglingEnv 9 9 [.build 0 true]).ran ∧
    (buildRoot danglingEnv 9 9 (run danglingEnv 9 9 [.build 9 false]) 0).1.ran = [7] := by decide

end Verif.Manager
