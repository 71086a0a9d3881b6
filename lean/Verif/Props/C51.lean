import Verif.Model.MakeCube
import Verif.Lemmas.Scf
import Mathlib.Tactic.Linarith

/-! C51 — synthetic cubes do not depend on the schedule. -/

namespace TS
open Finset

namespace Spec

/-- A legal run of the tasks: serial, or any cutting into chunks and any order in which the chunks finish. -/
def LegalSchedule : Schedule → Prop
  | .serial => True
  | .pool chunking order => ∀ l, (chunking l).flatten = l ∧ order.Perm (List.range (chunking l).length)

/-- The line of sight through sky pixel `(y, x)` along axis `ax` of a field. -/
def sightLine (f : Arr3 ℝ) (ax : ℕ) (y x : ℕ) : Arr1 ℝ :=
  match ax with
  | 0 => ⟨f.n, fun k => f.get k y x⟩
  | 1 => ⟨f.m, fun k => f.get y k x⟩
  | _ => ⟨f.p, fun k => f.get y x k⟩

/-- Length of axis `ax` and the two sky sizes. -/
def skyShape (f : Arr3 ℝ) (ax : ℕ) : ℕ × ℕ × ℕ :=
  match ax with
  | 0 => (f.n, f.m, f.p)
  | 1 => (f.m, f.n, f.p)
  | _ => (f.p, f.n, f.m)

end Spec
open Spec

theorem mapM_all_ok {α β : Type*} (f : α → Py β) (g : α → β) (l : List α) (h : ∀ t ∈ l, f t = .ok (g t)) :
    l.mapM f = .ok (l.map g) := by
  induction l with
  | nil => rfl
  | cons x xs ih =>
    rw [List.mapM_cons, h x (by simp), ih (fun t ht => h t (List.mem_cons_of_mem _ ht))]
    rfl

theorem mapM_ok_mem {α β : Type*} (f : α → Py β) (l : List α) (rs : List β) (h : l.mapM f = .ok rs) :
    ∀ t ∈ l, ∃ b, f t = .ok b := by
  induction l generalizing rs with
  | nil => intro t ht; simp at ht
  | cons x xs ih =>
    rw [List.mapM_cons] at h
    cases hx : f x with
    | error e => rw [hx] at h; cases h
    | ok b =>
      rw [hx] at h
      simp only [bind, Except.bind] at h
      cases hxs : xs.mapM f with
      | error e => rw [hxs] at h; cases h
      | ok bs =>
        intro t ht
        rcases List.mem_cons.1 ht with rfl | ht
        · exact ⟨b, hx⟩
        · exact ih bs hxs t ht

/-- The pool returns what `map` returns, whatever the chunks and the order of completion. -/
theorem poolMap_eq {α β : Type*} (f : α → Py β) (g : α → β) (chunks : List (List α)) (order : List ℕ)
    (hperm : order.Perm (List.range chunks.length)) (h : ∀ t ∈ chunks.flatten, f t = .ok (g t)) :
    poolMap f chunks order = .ok (chunks.flatten.map g) := by
  have hchunk : ∀ i < chunks.length, (chunks.getD i []).mapM f = .ok ((chunks.getD i []).map g) := by
    intro i hi
    apply mapM_all_ok
    intro t ht
    apply h
    rw [List.mem_flatten]
    refine ⟨_, ?_, ht⟩
    rw [List.getD_eq_getElem?_getD, List.getElem?_eq_getElem hi]
    exact List.getElem_mem hi
  have key : ∀ (o : List ℕ) (done : ℕ → Bool), (∀ i ∈ o, i < chunks.length) →
      o.foldlM (fun (slots : List (Option (List β))) i => do
        let r ← (chunks.getD i []).mapM f
        return slots.set i (some r))
        ((List.range chunks.length).map (fun i => if done i then some ((chunks.getD i []).map g) else none)) =
      (.ok ((List.range chunks.length).map (fun i => if done i || decide (i ∈ o) then some ((chunks.getD i []).map g) else none)) : Py _) := by
    intro o
    induction o with
    | nil => intro done _; simp; rfl
    | cons i o ih =>
      intro done ho
      rw [List.foldlM_cons, hchunk i (ho i (by simp))]
      simp only [bind, Except.bind, pure, Except.pure]
      have hset : ((List.range chunks.length).map (fun i => if done i then some ((chunks.getD i []).map g) else none)).set i
          (some ((chunks.getD i []).map g)) =
          (List.range chunks.length).map (fun j => if (done j || decide (j = i)) then some ((chunks.getD j []).map g) else none) := by
        apply List.ext_getElem
        · simp
        · intro j h1 h2
          rw [List.getElem_set]
          simp only [List.getElem_map, List.getElem_range]
          by_cases hij : i = j
          · subst hij; simp
          · rw [if_neg hij]
            simp [Ne.symm hij]
      rw [hset]
      have := ih (fun j => done j || decide (j = i)) (fun j hj => ho j (List.mem_cons_of_mem _ hj))
      simp only [bind, Except.bind, pure, Except.pure] at this
      rw [this]
      congr 2
      funext j
      congr 1
      simp [Bool.or_assoc]
  unfold poolMap
  have hrep : (List.replicate chunks.length none : List (Option (List β))) =
      (List.range chunks.length).map (fun i => if (fun _ => false) i then some ((chunks.getD i []).map g) else none) := by
    simp
  rw [hrep, key order (fun _ => false) (fun i hi => List.mem_range.1 (hperm.mem_iff.1 hi))]
  simp only [bind, Except.bind, pure, Except.pure]
  congr 1
  have hall : (List.range chunks.length).map (fun i => if (false || decide (i ∈ order)) then some ((chunks.getD i []).map g) else none) =
      chunks.map (fun c => some (c.map g)) := by
    apply List.ext_getElem
    · simp
    · intro j h1 h2
      simp only [List.length_map, List.length_range] at h1
      simp only [List.getElem_map, List.getElem_range]
      have : j ∈ order := hperm.mem_iff.2 (List.mem_range.2 h1)
      simp [this, List.getElem?_eq_getElem h1]
  rw [hall]
  simp [List.map_map, Function.comp_def, List.map_flatten]

private theorem run_indep (sch : Schedule) (hs : LegalSchedule sch) (vel dens : Arr3 ℝ) (los : ℤ) (edges : Arr1 ℝ) (vt pix : ℝ)
    (tasks : List (ℕ × ℕ)) (rs : List (Arr1 ℝ × ℕ × ℕ))
    (h : runTasks .serial vel dens los edges vt pix tasks = .ok rs) :
    runTasks sch vel dens los edges vt pix tasks = .ok rs := by
  cases sch with
  | serial => exact h
  | pool chunking order =>
    unfold runTasks serialMap at h
    simp only at h
    have hm := mapM_ok_mem _ _ _ h
    have hin : ∀ t ∈ tasks, ∃ i, taskInput vel dens los t = .ok i ∧ ∃ b, mapper edges vt pix i = .ok b := by
      intro t ht
      obtain ⟨b, hb⟩ := hm t ht
      cases hi : taskInput vel dens los t with
      | error e => rw [hi] at hb; cases hb
      | ok i => rw [hi] at hb; exact ⟨i, rfl, b, hb⟩
    classical
    let gi : ℕ × ℕ → Arr1 ℝ × Arr1 ℝ × ℕ × ℕ := fun t => if ht : t ∈ tasks then (hin t ht).choose else (⟨0, fun _ => 0⟩, ⟨0, fun _ => 0⟩, 0, 0)
    let gm : Arr1 ℝ × Arr1 ℝ × ℕ × ℕ → Arr1 ℝ × ℕ × ℕ := fun i => match mapper edges vt pix i with
      | .ok b => b
      | .error _ => (⟨0, fun _ => 0⟩, 0, 0)
    have h1 : ∀ t ∈ tasks, taskInput vel dens los t = .ok (gi t) := by
      intro t ht
      simp only [gi, dif_pos ht]
      exact (hin t ht).choose_spec.1
    have h2 : ∀ t ∈ tasks, mapper edges vt pix (gi t) = .ok (gm (gi t)) := by
      intro t ht
      obtain ⟨b, hb⟩ := (hin t ht).choose_spec.2
      have e : gi t = (hin t ht).choose := by simp only [gi, dif_pos ht]
      rw [e]
      simp only [gm, hb]
    have h3 : tasks.mapM (fun t => do mapper edges vt pix (← taskInput vel dens los t)) = .ok (tasks.map (fun t => gm (gi t))) := by
      apply mapM_all_ok
      intro t ht
      rw [h1 t ht]
      exact h2 t ht
    have h4 : (Except.ok rs : Py (List (Arr1 ℝ × ℕ × ℕ))) = .ok (tasks.map (fun t => gm (gi t))) := by
      rw [← h, ← h3]
    injection h4 with h4
    subst h4
    unfold runTasks serialMap
    simp only
    rw [mapM_all_ok _ gi tasks h1]
    simp only [bind, Except.bind]
    obtain ⟨hf, hp⟩ := hs (tasks.map gi)
    rw [poolMap_eq (mapper edges vt pix) gm _ _ hp, hf, List.map_map]
    · rfl
    · rw [hf]
      intro i hi
      obtain ⟨t, ht, rfl⟩ := List.mem_map.1 hi
      exact h2 t ht

/-- A cube made serially is made identically by any number of processes, any chunking and any completion order. -/
theorem C51_schedule (sch : Schedule) (hs : LegalSchedule sch) (init : ℕ → ℕ → ℕ → ℝ) (vel dens : Arr3 ℝ) (o : PpvOpts)
    (out : Arr3 ℝ × Arr1 ℝ) (h : makePpv .serial init vel dens o = .ok out) :
    makePpv sch init vel dens o = .ok out := by
  unfold makePpv at h ⊢
  split_ifs at h ⊢ with hneg
  cases hc : ppvChannels vel o with
  | error e => simp only [hc, bind, Except.bind] at h; cases h
  | ok r =>
    obtain ⟨a, b, n⟩ := r
    simp only [hc, bind, Except.bind] at h ⊢
    split_ifs at h ⊢ with g1 g2
    cases hl : losShape vel o.los with
    | error e => simp only [hl] at h; cases h
    | ok L =>
      obtain ⟨L, p, q⟩ := L
      simp only [hl] at h ⊢
      cases hr : runTasks .serial vel dens o.los (velEdges a b n.toNat) o.vThermSq (o.losLength / L) (skyTasks p q) with
      | error e => simp only [hr] at h; cases h
      | ok rs =>
        rw [run_indep sch hs _ _ _ _ _ _ _ _ hr]
        simp only [hr] at h
        exact h

theorem mem_skyTasks {a b : ℕ} {t : ℕ × ℕ} : t ∈ skyTasks a b ↔ t.1 < a ∧ t.2 < b := by
  unfold skyTasks
  simp only [List.mem_flatMap, List.mem_range, List.mem_map]
  constructor
  · rintro ⟨y, hy, x, hx, rfl⟩; exact ⟨hy, hx⟩
  · rintro ⟨h1, h2⟩; exact ⟨t.1, h1, t.2, h2, rfl⟩

private theorem pool_ok_mem {α β : Type*} (f : α → Py β) (chunks : List (List α)) (order : List ℕ)
    (hperm : order.Perm (List.range chunks.length)) (rs : List β) (h : poolMap f chunks order = .ok rs) :
    ∀ t ∈ chunks.flatten, ∃ b, f t = .ok b := by
  have key : ∀ (o : List ℕ) (s s' : List (Option (List β))),
      o.foldlM (fun (slots : List (Option (List β))) i => do
        let r ← (chunks.getD i []).mapM f
        return slots.set i (some r)) s = (.ok s' : Py _) → ∀ i ∈ o, ∃ r, (chunks.getD i []).mapM f = .ok r := by
    intro o
    induction o with
    | nil => intro s s' _ i hi; simp at hi
    | cons j o ih =>
      intro s s' h i hi
      rw [List.foldlM_cons] at h
      cases hj : (chunks.getD j []).mapM f with
      | error e => rw [hj] at h; cases h
      | ok r =>
        rw [hj] at h
        rcases List.mem_cons.1 hi with rfl | hi
        · exact ⟨r, hj⟩
        · exact ih _ _ h i hi
  unfold poolMap at h
  cases hf : order.foldlM (fun (slots : List (Option (List β))) i => do
        let r ← (chunks.getD i []).mapM f
        return slots.set i (some r)) (List.replicate chunks.length none) with
  | error e => rw [hf] at h; cases h
  | ok s' =>
    intro t ht
    obtain ⟨c, hc, htc⟩ := List.mem_flatten.1 ht
    obtain ⟨i, hi, rfl⟩ := List.getElem_of_mem hc
    obtain ⟨r, hr⟩ := key order _ _ hf i (hperm.mem_iff.2 (List.mem_range.2 hi))
    rw [List.getD_eq_getElem?_getD, List.getElem?_eq_getElem hi] at hr
    exact mapM_ok_mem f _ _ hr t htc

private theorem run_back (sch : Schedule) (hs : LegalSchedule sch) (vel dens : Arr3 ℝ) (los : ℤ) (edges : Arr1 ℝ) (vt pix : ℝ)
    (tasks : List (ℕ × ℕ)) (rs : List (Arr1 ℝ × ℕ × ℕ))
    (h : runTasks sch vel dens los edges vt pix tasks = .ok rs) :
    ∃ rs', runTasks .serial vel dens los edges vt pix tasks = .ok rs' := by
  cases sch with
  | serial => exact ⟨rs, h⟩
  | pool chunking order =>
    unfold runTasks serialMap at h
    simp only at h
    cases hi : tasks.mapM (taskInput vel dens los) with
    | error e => rw [hi] at h; cases h
    | ok inputs =>
      rw [hi] at h
      simp only [bind, Except.bind] at h
      obtain ⟨hf, hp⟩ := hs inputs
      have hm := pool_ok_mem _ _ _ hp _ h
      rw [hf] at hm
      have both : ∀ (tasks : List (ℕ × ℕ)) (inputs : List (Arr1 ℝ × Arr1 ℝ × ℕ × ℕ)), tasks.mapM (taskInput vel dens los) = .ok inputs →
          (∀ t ∈ inputs, ∃ b, mapper edges vt pix t = .ok b) →
          ∃ rs', tasks.mapM (fun t => do mapper edges vt pix (← taskInput vel dens los t)) = .ok rs' := by
        intro tasks
        induction tasks with
        | nil => intro _ _ _; exact ⟨[], rfl⟩
        | cons t ts ih =>
          intro inputs hi hm
          rw [List.mapM_cons] at hi
          cases ht : taskInput vel dens los t with
          | error e => rw [ht] at hi; cases hi
          | ok a =>
            rw [ht] at hi
            cases hts : ts.mapM (taskInput vel dens los) with
            | error e => rw [hts] at hi; cases hi
            | ok as =>
              rw [hts] at hi
              cases hi
              obtain ⟨b, hb⟩ := hm a (by simp)
              obtain ⟨bs, hbs⟩ := ih as hts (fun t ht => hm t (List.mem_cons_of_mem _ ht))
              refine ⟨b :: bs, ?_⟩
              rw [List.mapM_cons, hbs, ht]
              show (do let r ← mapper edges vt pix a; pure (r :: bs) : Py _) = _
              rw [hb]; rfl
      exact both tasks inputs hi hm

/-- And the other way round: no schedule succeeds where the serial run raises, so the number of threads decides neither
the cube nor whether there is one. -/
theorem C51_schedule_iff (sch : Schedule) (hs : LegalSchedule sch) (init : ℕ → ℕ → ℕ → ℝ) (vel dens : Arr3 ℝ) (o : PpvOpts)
    (out : Arr3 ℝ × Arr1 ℝ) :
    makePpv sch init vel dens o = .ok out ↔ makePpv .serial init vel dens o = .ok out := by
  refine ⟨fun h => ?_, C51_schedule sch hs init vel dens o out⟩
  have : ∃ out', makePpv .serial init vel dens o = .ok out' := by
    unfold makePpv at h ⊢
    split_ifs at h ⊢ with hneg
    cases hc : ppvChannels vel o with
    | error e => simp only [hc, bind, Except.bind] at h; cases h
    | ok r =>
      obtain ⟨a, b, n⟩ := r
      simp only [hc, bind, Except.bind] at h ⊢
      split_ifs at h ⊢ with g1 g2
      cases hl : losShape vel o.los with
      | error e => simp only [hl] at h; cases h
      | ok L =>
        obtain ⟨L, p, q⟩ := L
        simp only [hl] at h ⊢
        cases hr : runTasks sch vel dens o.los (velEdges a b n.toNat) o.vThermSq (o.losLength / L) (skyTasks p q) with
        | error e => simp only [hr] at h; cases h
        | ok rs =>
          obtain ⟨rs', hrs⟩ := run_back sch hs _ _ _ _ _ _ _ _ hr
          exact ⟨_, by rw [hrs]; rfl⟩
  obtain ⟨out', h'⟩ := this
  have := C51_schedule sch hs init vel dens o out' h'
  rw [h] at this
  rw [h']
  exact this.symm

/-- Every sky pixel is one task, once. -/
theorem C51_tasks_once (a b : ℕ) : (skyTasks a b).Nodup ∧ (skyTasks a b).length = a * b ∧
    ∀ y x, (y, x) ∈ skyTasks a b ↔ y < a ∧ x < b := by
  refine ⟨?_, ?_, fun y x => mem_skyTasks⟩
  · unfold skyTasks
    rw [List.nodup_flatMap]
    constructor
    · intro y _
      exact (List.nodup_map_iff (fun x x' h => by simpa using h)).2 List.nodup_range
    · apply List.Nodup.pairwise_of_forall_ne List.nodup_range
      intro y _ y' _ hne t ht ht'
      obtain ⟨x, _, rfl⟩ := List.mem_map.1 ht
      obtain ⟨x', _, h⟩ := List.mem_map.1 ht'
      exact hne (by simpa using (congrArg Prod.fst h).symm)
  · unfold skyTasks
    simp [List.length_flatMap]

private theorem fill_get (S : ℕ × ℕ → Arr1 ℝ) (tasks : List (ℕ × ℕ)) (init : ℕ → ℕ → ℕ → ℝ) (c y x : ℕ) (h : (y, x) ∈ tasks) :
    fillCube init (tasks.map (fun t => (S t, t.1, t.2))) c y x = (S (y, x)).get c := by
  have gen : ∀ (tasks : List (ℕ × ℕ)) (init : ℕ → ℕ → ℕ → ℝ), fillCube init (tasks.map (fun t => (S t, t.1, t.2))) c y x =
      if (y, x) ∈ tasks then (S (y, x)).get c else init c y x := by
    intro tasks
    induction tasks with
    | nil => intro init; simp [fillCube]
    | cons t ts ih =>
      intro init
      have : fillCube init ((t :: ts).map (fun t => (S t, t.1, t.2))) c y x =
          fillCube (fun c y x => if y = t.1 ∧ x = t.2 then (S t).get c else init c y x) (ts.map (fun t => (S t, t.1, t.2))) c y x := rfl
      rw [this, ih]
      by_cases h1 : (y, x) ∈ ts
      · rw [if_pos h1, if_pos (List.mem_cons_of_mem _ h1)]
      · rw [if_neg h1]
        by_cases h2 : y = t.1 ∧ x = t.2
        · have e : (y, x) = t := Prod.ext h2.1 h2.2
          rw [if_pos h2, if_pos (by rw [e]; exact List.mem_cons_self), e]
        · rw [if_neg h2, if_neg]
          intro hm
          rcases List.mem_cons.1 hm with e | e
          · exact h2 ⟨congrArg Prod.fst e, congrArg Prod.snd e⟩
          · exact h1 e
  rw [gen, if_pos h]

/-- For the non-negative axes 0, 1, 2 (and -3), each sky pixel of the cube is the spectrum of the line of sight through
that pixel; nothing of the uninitialised memory remains. Missing: the negative axes -1 and -2 (`C51_negative_axis_violated`). -/
theorem C51_pixels_partial (sch : Schedule) (hs : LegalSchedule sch) (init : ℕ → ℕ → ℕ → ℝ) (vel dens : Arr3 ℝ) (o : PpvOpts)
    (ax : ℕ) (hax : ax < 3) (hlos : o.los = ax ∨ (ax = 0 ∧ o.los = -3))
    (hshape : dens.n = vel.n ∧ dens.m = vel.m ∧ dens.p = vel.p) (hlen : 2 ≤ (skyShape vel ax).1)
    (hpos : ∀ x ∈ dens.values, 0 ≤ x) (vmin vmax : VelArg) (n : ℕ) (hch : ppvChannels vel o = .ok (vmin, vmax, (n : ℤ)))
    (hmax : n ≤ o.maxChan) :
    ∃ cube axis, makePpv sch init vel dens o = .ok (cube, axis) ∧ cube.n = n ∧ axis.n = n ∧
      cube.m = (skyShape vel ax).2.1 ∧ cube.p = (skyShape vel ax).2.2 ∧
      ∀ y < cube.m, ∀ x < cube.p, ∃ spec, spectrumMaker (velEdges vmin vmax n) (sightLine vel ax y x) (sightLine dens ax y x)
          o.vThermSq (o.losLength / (skyShape vel ax).1) = .ok spec ∧ ∀ c, cube.get c y x = spec.get c := by
  have hall : dens.values.any (fun x => decide (x < 0)) = false := by
    rw [List.any_eq_false]
    intro x hx
    simpa using hpos x hx
  have hl : losShape vel o.los = .ok (skyShape vel ax) := by
    unfold losShape skyShape
    rcases hlos with h | ⟨h, h'⟩
    · rw [h]
      have : ax = 0 ∨ ax = 1 ∨ ax = 2 := by omega
      rcases this with rfl | rfl | rfl <;> norm_num
    · subst h; rw [h']; norm_num
  have hline : ∀ f : Arr3 ℝ, f.n = vel.n → f.m = vel.m → f.p = vel.p → ∀ y < (skyShape vel ax).2.1, ∀ x < (skyShape vel ax).2.2,
      fieldLine f o.los y x = .ok (sightLine f ax y x) := by
    intro f e1 e2 e3 y hy x hx
    unfold fieldLine
    rcases hlos with h | ⟨h, h'⟩
    · rw [h]
      have : ax = 0 ∨ ax = 1 ∨ ax = 2 := by omega
      rcases this with rfl | rfl | rfl
      · have hp : insertPos 2 ((0 : ℕ) : ℤ) = 0 := by decide
        rw [hp]; simp only [skyShape] at hy hx; simp only; rw [if_pos ⟨by omega, by omega⟩]; rfl
      · have hp : insertPos 2 ((1 : ℕ) : ℤ) = 1 := by decide
        rw [hp]; simp only [skyShape] at hy hx; simp only; rw [if_pos ⟨by omega, by omega⟩]; rfl
      · have hp : insertPos 2 ((2 : ℕ) : ℤ) = 2 := by decide
        rw [hp]; simp only [skyShape] at hy hx; simp only; rw [if_pos ⟨by omega, by omega⟩]; rfl
    · subst h
      rw [h']
      have hp : insertPos 2 (-3) = 0 := by decide
      rw [hp]; simp only [skyShape] at hy hx; simp only; rw [if_pos ⟨by omega, by omega⟩]; rfl
  set E := velEdges vmin vmax n with hE
  set pix := o.losLength / ((skyShape vel ax).1 : ℝ) with hpix
  have hspec : ∀ y x, ∃ s, spectrumMaker E (sightLine vel ax y x) (sightLine dens ax y x) o.vThermSq pix = .ok s := by
    intro y x
    have hlen' : (sightLine vel ax y x).n = (skyShape vel ax).1 := by
      unfold sightLine skyShape; split <;> rfl
    unfold spectrumMaker npGradient
    rw [if_neg (by omega)]
    exact ⟨_, rfl⟩
  choose S hS using hspec
  have hrun : runTasks .serial vel dens o.los E o.vThermSq pix (skyTasks (skyShape vel ax).2.1 (skyShape vel ax).2.2) =
      .ok ((skyTasks (skyShape vel ax).2.1 (skyShape vel ax).2.2).map (fun t => (S t.1 t.2, t.1, t.2))) := by
    unfold runTasks serialMap
    simp only
    apply mapM_all_ok
    intro t ht
    obtain ⟨h1, h2⟩ := mem_skyTasks.1 ht
    unfold taskInput mapper
    rw [hline vel rfl rfl rfl _ h1 _ h2, hline dens hshape.1 hshape.2.1 hshape.2.2 _ h1 _ h2]
    simp only [bind, Except.bind, pure, Except.pure, hS]
  have hrun' := run_indep sch hs _ _ _ _ _ _ _ _ hrun
  refine ⟨⟨n, (skyShape vel ax).2.1, (skyShape vel ax).2.2, fillCube init
    ((skyTasks (skyShape vel ax).2.1 (skyShape vel ax).2.2).map (fun t => (S t.1 t.2, t.1, t.2)))⟩,
    chanCents E, ?_, rfl, rfl, rfl, rfl, ?_⟩
  · unfold makePpv
    rw [hall]
    simp only [Bool.false_eq_true, if_false, hch, bind, Except.bind]
    rw [if_neg (by omega), if_neg (by omega)]
    simp only [hl, Int.toNat_natCast, ← hE, ← hpix, hrun', pure, Except.pure]
    rfl
  · intro y hy x hx
    refine ⟨S y x, hS y x, ?_⟩
    intro c
    exact fill_get (fun t => S t.1 t.2) _ init c y x (mem_skyTasks.2 ⟨hy, hx⟩)

/-- Negative axes other than -3 read the wrong lines of sight: `los_axis=-1` drops axis 2 from the shape but slices
along axis 1. -/
theorem C51_negative_axis_violated (f : Arr3 ℝ) (y x : ℕ) (hy : y < f.n) (hx : x < f.p) :
    losShape f (-1) = .ok (skyShape f 2) ∧ fieldLine f (-1) y x = .ok (sightLine f 1 y x) := by
  constructor
  · unfold losShape skyShape; norm_num
  · unfold fieldLine
    have hp : insertPos 2 (-1) = 1 := by decide
    rw [hp]
    simp only
    rw [if_pos ⟨hy, hx⟩]; rfl

/-- Any negative density is rejected. -/
theorem C51_negative_density (sch : Schedule) (init : ℕ → ℕ → ℕ → ℝ) (vel dens : Arr3 ℝ) (o : PpvOpts)
    (i j k : ℕ) (hi : i < dens.n) (hj : j < dens.m) (hk : k < dens.p) (h : dens.get i j k < 0) :
    makePpv sch init vel dens o = .error .valueError := by
  unfold makePpv
  rw [if_pos]
  rw [List.any_eq_true]
  refine ⟨dens.get i j k, ?_, by simpa using h⟩
  unfold Arr3.values
  simp only [List.mem_flatMap, List.mem_range, List.mem_map]
  exact ⟨i, hi, j, hj, k, hk, rfl⟩

/-- `v_min > v_max` is rejected, whatever their units. -/
theorem C51_limits_swapped (sch : Schedule) (init : ℕ → ℕ → ℕ → ℝ) (vel dens : Arr3 ℝ) (o : PpvOpts) (vmin vmax : VelArg)
    (hmin : o.vMin = some vmin) (hmax : o.vMax = some vmax) (h1 : vmin.isVel = true) (h2 : vmax.isVel = true)
    (hlos : -3 ≤ o.los ∧ o.los ≤ 2) (hne : vel.values ≠ []) (h : vmax.cgs < vmin.cgs) :
    makePpv sch init vel dens o = .error .valueError := by
  unfold makePpv
  split_ifs
  · rfl
  · have hc : ppvChannels vel o = .error .valueError := by
      unfold ppvChannels
      obtain ⟨L, hl⟩ : ∃ L, losShape vel o.los = .ok L := by
        unfold losShape
        split_ifs
        · exact ⟨_, rfl⟩
        · exact ⟨_, rfl⟩
        · exact ⟨_, rfl⟩
        · omega
      obtain ⟨v, vs, hv⟩ := List.exists_cons_of_ne_nil hne
      simp only [hl, bind, Except.bind, hv, npMin, npMax, hmin, hmax, velLimit, h1, h2, if_true]
      rw [if_pos h]
    simp only [hc, bind, Except.bind]

/-- Too many channels are rejected. -/
theorem C51_too_many_channels (sch : Schedule) (init : ℕ → ℕ → ℕ → ℝ) (vel dens : Arr3 ℝ) (o : PpvOpts) (vmin vmax : VelArg) (n : ℤ)
    (hc : ppvChannels vel o = .ok (vmin, vmax, n)) (h : (o.maxChan : ℤ) < n) :
    makePpv sch init vel dens o = .error .valueError := by
  unfold makePpv
  split_ifs
  · rfl
  · simp only [hc, bind, Except.bind]
    rw [if_pos h]

/-- With one channel or none, asking for an HDU raises IndexError although the cube itself is made. -/
theorem C51_one_channel_hdu (sch : Schedule) (init : ℕ → ℕ → ℕ → ℝ) (vel dens : Arr3 ℝ) (o : PpvOpts) (cube : Arr3 ℝ) (axis : Arr1 ℝ)
    (h : makePpv sch init vel dens o = .ok (cube, axis)) (h1 : axis.n < 2) :
    makePpvHdu sch init vel dens o = .error .indexError := by
  unfold makePpvHdu
  simp only [h, bind, Except.bind]
  rw [if_pos h1]

/-- Not vacuous: cutting into single tasks and finishing in reverse is a legal schedule. -/
example (l : List ℕ) : (l.map (fun t => [t])).flatten = l ∧ ((List.range l.length).reverse).Perm (List.range l.length) := by
  constructor
  · induction l with
    | nil => rfl
    | cons x xs ih => simpa using ih
  · exact List.reverse_perm _

/-- Not vacuous: a 2×3×3 field of velocities 0.5, channels of width 1 from 0 to 2, meets the hypotheses of the pixel theorem. -/
example (d : ℝ) (hd : 0 ≤ d) : ∃ (vel dens : Arr3 ℝ) (o : PpvOpts) (vmin vmax : VelArg), o.los = 0 ∧ 2 ≤ (skyShape vel 0).1 ∧
    (∀ x ∈ dens.values, 0 ≤ x) ∧ ppvChannels vel o = .ok (vmin, vmax, ((2 : ℕ) : ℤ)) ∧ 2 ≤ o.maxChan ∧ vel.m = 3 := by
  refine ⟨⟨2, 3, 3, fun _ _ _ => 1 / 2⟩, ⟨2, 3, 3, fun _ _ _ => d⟩,
    ⟨1, 0, 1, 1, some 1, some ⟨1, 1, true⟩, some ⟨0, 1, true⟩, some ⟨2, 1, true⟩, 1000, none⟩, ⟨0, 1, true⟩, ⟨2, 1, true⟩, rfl,
    by simp [skyShape], ?_, ?_, by norm_num, rfl⟩
  · intro x hx
    unfold Arr3.values at hx
    simp only [List.mem_flatMap, List.mem_range, List.mem_map] at hx
    obtain ⟨_, _, _, _, _, _, rfl⟩ := hx
    exact hd
  · have hc : chanCountGiven (2 - 0) 1 ⟨1, 1, true⟩ = .ok 2 := by
      unfold chanCountGiven
      rw [if_neg (by norm_num)]
      simp only
      have h : ⌈((2 : ℝ) - 0) / 1 / (1 / 1)⌉ = 2 := by rw [Int.ceil_eq_iff]; norm_num
      rw [h]
      have : (((2 : ℤ) : ℝ) * (1 / 1)) = ((2 : ℤ) : ℝ) := by norm_num
      rw [this, pyInt_intCast]
    have hl : losShape (⟨2, 3, 3, fun _ _ _ => 1 / 2⟩ : Arr3 ℝ) 0 = .ok (2, 3, 3) := by
      unfold losShape; simp
    unfold ppvChannels
    simp only [hl, bind, Except.bind, velLimit, Arr3.values, List.range, List.range.loop, List.flatMap_cons, List.map, npMin, npMax,
      List.cons_append, if_true]
    rw [if_neg (by norm_num)]
    simp only [hc, pure, Except.pure]
    rfl

end TS
