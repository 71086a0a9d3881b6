import Verif.Model.SaveResults

/-! C83: saved results can be loaded again.  `save_results` leaves the object alone; `load_results` gives an independent object with
the attributes the saved one had, whatever happened in between; without `keep_data` the input data are left out. -/

namespace TS

namespace Spec

/-- What a user sees when looking at an attribute. -/
inductive Seen where
  | none
  | num (x : ℝ)
  | str (s : Str)
  | arr (a : Arr1 (Option ℝ))

/-- The contents behind an attribute value. -/
def seenVal (arrs : ℕ → Arr1 (Option ℝ)) : AttrVal → Seen
  | .none => .none
  | .num x => .num x
  | .str s => .str s
  | .arr a => .arr (arrs a)

/-- `obj.name`, looking through to the contents of arrays. -/
def seen (w : World) (o : ℕ) (name : Str) : Option Seen := (getAttr (w.objs o) name).map (seenVal w.arrs)

/-- Attributes of existing objects and of files refer to existing arrays. -/
structure Sound (w : World) : Prop where
  objs : ∀ o < w.nextObj, ∀ p ∈ w.objs o, p.2.Below w.nextArr
  files : ∀ path at' f n, w.disk path = some (.full at' f n) → ∀ p ∈ at', p.2.Below n

/-- No step of the history saves under this file. -/
def NotTo (path : Str) : SaveOp → Prop
  | .save _ _ name _ _ => pklPath name ≠ path
  | _ => True

/-- Memory and disk with nothing in them. -/
def emptyWorld : World := ⟨fun _ => ⟨0, fun _ => none⟩, 0, fun _ => [], 0, fun _ => none⟩

end Spec

open Spec

/-! ### attributes -/

private theorem getAttr_map (d : ℕ) (l : Attrs) (name : Str) :
    getAttr (l.map fun p => (p.1, p.2.shift d)) name = (getAttr l name).map (AttrVal.shift d) := by
  induction l with
  | nil => rfl
  | cons p t ih =>
    obtain ⟨k, v⟩ := p
    simp only [List.map_cons, getAttr]
    split_ifs <;> simp [ih]

private theorem getAttr_set (name : Str) (v : AttrVal) (l : Attrs) (b : Str) :
    getAttr (setAttr name v l) b = if b = name then some v else getAttr l b := by
  induction l with
  | nil => simp [setAttr, getAttr, eq_comm]
  | cons p t ih =>
    obtain ⟨k, u⟩ := p
    simp only [setAttr]
    by_cases hk : k = name
    · subst hk
      rw [if_pos rfl]
      simp only [getAttr]
      by_cases hb : k = b
      · simp [hb]
      · rw [if_neg hb, if_neg hb, if_neg (fun h => hb h.symm)]
    · simp only [if_neg hk, getAttr]
      by_cases hb : k = b
      · subst hb
        simp [hk]
      · rw [if_neg hb, if_neg hb, ih]

private theorem getAttr_mem {l : Attrs} {name : Str} {v : AttrVal} (h : getAttr l name = some v) : (name, v) ∈ l := by
  induction l with
  | nil => simp [getAttr] at h
  | cons p t ih =>
    obtain ⟨k, u⟩ := p
    simp only [getAttr] at h
    split_ifs at h with hk
    · subst hk
      simp only [Option.some.injEq] at h
      subst h
      exact List.mem_cons_self
    · exact List.mem_cons_of_mem _ (ih h)

private theorem mem_setAttr {name : Str} {v : AttrVal} {l : Attrs} {p : Str × AttrVal} (h : p ∈ setAttr name v l) :
    p ∈ l ∨ p = (name, v) := by
  induction l with
  | nil => simpa [setAttr] using h
  | cons q t ih =>
    obtain ⟨k, u⟩ := q
    simp only [setAttr] at h
    split_ifs at h with hk
    · subst hk
      rcases List.mem_cons.1 h with h | h
      · exact Or.inr h
      · exact Or.inl (List.mem_cons_of_mem _ h)
    · rcases List.mem_cons.1 h with h | h
      · exact Or.inl (h ▸ List.mem_cons_self)
      · rcases ih h with h | h
        · exact Or.inl (List.mem_cons_of_mem _ h)
        · exact Or.inr h

private theorem below_mono {m n : ℕ} (h : m ≤ n) {v : AttrVal} (hv : v.Below m) : v.Below n := by
  cases v <;> simp only [AttrVal.Below] at hv ⊢
  omega

private theorem below_shift {d n : ℕ} {v : AttrVal} (hv : v.Below n) : (v.shift d).Below (d + n) := by
  cases v <;> simp only [AttrVal.Below, AttrVal.shift] at hv ⊢
  omega

/-! ### the copy that is written -/

private theorem dropped_objs (dropped : List Str) (w : World) (c : ℕ) :
    (dropped.foldl (fun w name => w.setattr c name .none) w).arrs = w.arrs ∧
    (dropped.foldl (fun w name => w.setattr c name .none) w).nextArr = w.nextArr ∧
    (dropped.foldl (fun w name => w.setattr c name .none) w).nextObj = w.nextObj ∧
    (dropped.foldl (fun w name => w.setattr c name .none) w).disk = w.disk ∧
    (∀ o, o ≠ c → (dropped.foldl (fun w name => w.setattr c name .none) w).objs o = w.objs o) ∧
    (∀ b, getAttr ((dropped.foldl (fun w name => w.setattr c name .none) w).objs c) b =
      if b ∈ dropped then some .none else getAttr (w.objs c) b) ∧
    (∀ p ∈ (dropped.foldl (fun w name => w.setattr c name .none) w).objs c, p ∈ w.objs c ∨ p.2 = .none) := by
  induction dropped generalizing w with
  | nil => exact ⟨rfl, rfl, rfl, rfl, fun _ _ => rfl, fun _ => by simp, fun _ h => Or.inl h⟩
  | cons d t ih =>
    simp only [List.foldl_cons]
    obtain ⟨h1, h2, h3, h4, h5, h6, h7⟩ := ih (w.setattr c d .none)
    refine ⟨h1, h2, h3, h4, ?_, ?_, ?_⟩
    · intro o ho
      rw [h5 o ho]
      simp [World.setattr, ho]
    · intro b
      rw [h6 b]
      simp only [World.setattr, Function.update_self, getAttr_set, List.mem_cons]
      by_cases h : b ∈ t <;> by_cases h' : b = d <;> simp [h, h']
    · intro p hp
      rcases h7 p hp with h | h
      · simp only [World.setattr, Function.update_self] at h
        rcases mem_setAttr h with h | h
        · exact Or.inl h
        · exact Or.inr (by rw [h])
      · exact Or.inr h

private theorem dropData_facts (dropped : List Str) (keep : Bool) (w : World) (c : ℕ) :
    (dropData dropped keep w c).arrs = w.arrs ∧ (dropData dropped keep w c).nextArr = w.nextArr ∧
    (dropData dropped keep w c).nextObj = w.nextObj ∧ (dropData dropped keep w c).disk = w.disk ∧
    (∀ o, o ≠ c → (dropData dropped keep w c).objs o = w.objs o) ∧
    (∀ b, getAttr ((dropData dropped keep w c).objs c) b =
      if keep = false ∧ b ∈ dropped then some .none else getAttr (w.objs c) b) ∧
    (∀ p ∈ (dropData dropped keep w c).objs c, p ∈ w.objs c ∨ p.2 = .none) := by
  unfold dropData
  cases keep with
  | true => exact ⟨rfl, rfl, rfl, rfl, fun _ _ => rfl, fun _ => by simp, fun _ h => Or.inl h⟩
  | false => simpa using dropped_objs dropped w c

private theorem writePickle_mem (w : World) (c : ℕ) (path : Str) (ev : WriteEvent) :
    (writePickle w c path ev).1.arrs = w.arrs ∧ (writePickle w c path ev).1.nextArr = w.nextArr ∧
    (writePickle w c path ev).1.objs = w.objs ∧ (writePickle w c path ev).1.nextObj = w.nextObj ∧
    (∀ q, q ≠ path → (writePickle w c path ev).1.disk q = w.disk q) := by
  cases ev <;> simp only [writePickle, true_and] <;> intro q hq <;> simp [hq]

private theorem save_facts (dropped : List Str) (w : World) (o : ℕ) (name : Str) (keep : Bool) (ev : WriteEvent) :
    (saveResults dropped w o name keep ev).1.arrs = (w.allocArrs w.arrs w.nextArr).arrs ∧
    (saveResults dropped w o name keep ev).1.nextArr = w.nextArr + w.nextArr ∧
    (saveResults dropped w o name keep ev).1.nextObj = w.nextObj + 1 ∧
    (∀ q, q ≠ pklPath name → (saveResults dropped w o name keep ev).1.disk q = w.disk q) ∧
    (∀ o', o' ≠ w.nextObj → (saveResults dropped w o name keep ev).1.objs o' = w.objs o') ∧
    (∀ p ∈ (saveResults dropped w o name keep ev).1.objs w.nextObj,
      (∃ q ∈ w.objs o, p = (q.1, q.2.shift w.nextArr)) ∨ p.2 = .none) := by
  obtain ⟨h1, h2, h3, h4, h5, h6, h7⟩ := dropData_facts dropped keep (w.deepcopy o).1 (w.deepcopy o).2
  obtain ⟨g1, g2, g3, g4, g5⟩ := writePickle_mem (dropData dropped keep (w.deepcopy o).1 (w.deepcopy o).2) (w.deepcopy o).2
    (pklPath name) ev
  simp only [saveResults]
  refine ⟨by rw [g1, h1]; rfl, by rw [g2, h2]; rfl, by rw [g4, h3]; rfl, fun q hq => by rw [g5 q hq, h4]; rfl, ?_, ?_⟩
  · intro o' ho'
    rw [g3, h5 o' (by simpa [World.deepcopy] using ho')]
    simp [World.deepcopy, World.allocObj, World.allocArrs, ho']
  · intro p hp
    rw [g3] at hp
    rcases h7 p hp with h | h
    · left
      have hc : (w.deepcopy o).1.objs (w.deepcopy o).2 = (w.objs o).map fun p => (p.1, p.2.shift w.nextArr) := by
        simp [World.deepcopy, World.allocObj, World.allocArrs]
      rw [hc, List.mem_map] at h
      obtain ⟨q, hq, rfl⟩ := h
      exact ⟨q, hq, rfl⟩
    · exact Or.inr h

/-! ### histories keep the memory sound -/

private theorem sound_save {w : World} (hw : Sound w) (dropped : List Str) {o : ℕ} (ho : o < w.nextObj) (name : Str) (keep : Bool)
    (ev : WriteEvent) : Sound (saveResults dropped w o name keep ev).1 := by
  obtain ⟨h1, h2, h3, h4, h5, h6⟩ := save_facts dropped w o name keep ev
  have hnew : ∀ p ∈ (saveResults dropped w o name keep ev).1.objs w.nextObj, p.2.Below (w.nextArr + w.nextArr) := by
    intro p hp
    rcases h6 p hp with ⟨q, hq, rfl⟩ | h
    · exact below_shift (hw.objs o ho q hq)
    · rw [h]
      trivial
  refine ⟨?_, ?_⟩
  · intro o' ho' p hp
    rw [h2]
    by_cases he : o' = w.nextObj
    · subst he
      exact hnew p hp
    · rw [h5 o' he] at hp
      exact below_mono (by omega) (hw.objs o' (by omega) p hp)
  · intro path at' f n hd p hp
    by_cases hq : path = pklPath name
    · subst hq
      obtain ⟨d1, d2, d3, d4, d5, d6, d7⟩ := dropData_facts dropped keep (w.deepcopy o).1 (w.deepcopy o).2
      cases ev with
      | openFails =>
        have hd' : (dropData dropped keep (w.deepcopy o).1 (w.deepcopy o).2).disk (pklPath name) = some (.full at' f n) := hd
        rw [d4] at hd'
        exact hw.files _ _ _ _ hd' p hp
      | interrupted => simp [saveResults, writePickle] at hd
      | completes =>
        simp only [saveResults, writePickle, Function.update_self, Option.some.injEq, PklFile.full.injEq] at hd
        obtain ⟨e1, -, e3⟩ := hd
        rw [d2] at e3
        have e3' : w.nextArr + w.nextArr = n := e3
        rw [← e3']
        apply hnew p
        have : (saveResults dropped w o name keep .completes).1.objs w.nextObj =
            (dropData dropped keep (w.deepcopy o).1 (w.deepcopy o).2).objs (w.deepcopy o).2 := rfl
        rw [this, e1]
        exact hp
    · rw [h4 path hq] at hd
      exact hw.files _ _ _ _ hd p hp

private theorem sound_load {w : World} (hw : Sound w) (path : Str) : Sound (loadResults w path).1 := by
  unfold loadResults
  split
  · exact hw
  · exact hw
  · rename_i at' f n hd
    refine ⟨?_, ?_⟩
    · intro o ho p hp
      simp only [World.allocObj, World.allocArrs] at ho hp ⊢
      by_cases he : o = w.nextObj
      · subst he
        rw [Function.update_self] at hp
        obtain ⟨q, hq, rfl⟩ := List.mem_map.1 hp
        exact below_shift (hw.files _ _ _ _ hd q hq)
      · rw [Function.update_of_ne he] at hp
        exact below_mono (by omega) (hw.objs o (by omega) p hp)
    · intro path' at'' f' n' hd' p hp
      exact hw.files path' at'' f' n' hd' p hp

private theorem sound_step {w : World} (hw : Sound w) (op : SaveOp) : Sound (saveStep w op) := by
  cases op with
  | setattr o name v =>
    simp only [saveStep]
    split_ifs with h
    · refine ⟨?_, hw.files⟩
      intro o' ho' p hp
      simp only [World.setattr] at ho' hp ⊢
      by_cases he : o' = o
      · subst he
        rw [Function.update_self] at hp
        rcases mem_setAttr hp with hp | hp
        · exact hw.objs _ ho' p hp
        · rw [hp]
          exact h.2
      · rw [Function.update_of_ne he] at hp
        exact hw.objs o' ho' p hp
    · exact hw
  | write a k x =>
    simp only [saveStep]
    split_ifs
    · exact ⟨hw.objs, hw.files⟩
    · exact hw
  | newArr a =>
    refine ⟨?_, hw.files⟩
    intro o ho p hp
    exact below_mono (Nat.le_succ _) (hw.objs o ho p hp)
  | newObj =>
    refine ⟨?_, hw.files⟩
    intro o ho p hp
    simp only [saveStep, World.allocObj] at ho hp ⊢
    by_cases he : o = w.nextObj
    · subst he
      simp at hp
    · rw [Function.update_of_ne he] at hp
      exact hw.objs o (by omega) p hp
  | save dropped o name keep ev =>
    simp only [saveStep]
    split_ifs with h
    · exact sound_save hw dropped h name keep ev
    · exact hw
  | load path => exact sound_load hw path

/-- Every history from a sound memory, for instance the empty one, stays sound. -/
theorem C83_sound {w : World} (hw : Sound w) (ops : List SaveOp) : Sound (saveRun w ops) := by
  induction ops generalizing w with
  | nil => exact hw
  | cons op t ih => exact ih (sound_step hw op)

theorem C83_empty_sound : Sound emptyWorld := ⟨fun _ h => absurd h (Nat.not_lt_zero _), fun _ _ _ _ h => by simp [emptyWorld] at h⟩

/-! ### the object that is saved -/

/-- Saving, whether it succeeds or not, changes no attribute of any existing object, the saved one included. -/
theorem C83_unchanged {w : World} (hw : Sound w) (dropped : List Str) (o : ℕ) (name : Str) (keep : Bool) (ev : WriteEvent)
    {o' : ℕ} (ho' : o' < w.nextObj) (b : Str) : seen (saveResults dropped w o name keep ev).1 o' b = seen w o' b := by
  obtain ⟨h1, h2, h3, h4, h5, h6⟩ := save_facts dropped w o name keep ev
  unfold seen
  rw [h5 o' (by omega), h1]
  cases hg : getAttr (w.objs o') b with
  | none => rfl
  | some v =>
    have hv := hw.objs o' ho' _ (getAttr_mem hg)
    cases v with
    | arr a =>
      simp only [AttrVal.Below] at hv
      simp only [Option.map_some, seenVal, World.allocArrs]
      rw [if_neg (by omega)]
    | none => rfl
    | num x => rfl
    | str s => rfl

/-- Saving writes to one file, whose name ends in `.pkl`, and to no other. -/
theorem C83_one_file (dropped : List Str) (w : World) (o : ℕ) (name : Str) (keep : Bool) (ev : WriteEvent) :
    pklSuffix <:+ pklPath name ∧ (pklSuffix <:+ name → pklPath name = name) ∧ (¬ pklSuffix <:+ name → pklPath name = name ++ pklSuffix) ∧
    ∀ q, q ≠ pklPath name → (saveResults dropped w o name keep ev).1.disk q = w.disk q := by
  refine ⟨?_, ?_, ?_, (save_facts dropped w o name keep ev).2.2.2.1⟩
  · unfold pklPath
    split_ifs with h
    · exact List.isSuffixOf_iff_suffix.1 h
    · exact List.suffix_append _ _
  · intro h
    rw [pklPath, if_pos (List.isSuffixOf_iff_suffix.2 h)]
  · intro h
    rw [pklPath, if_neg (fun h' => h (List.isSuffixOf_iff_suffix.1 h'))]

/-! ### the file -/

private theorem disk_step {path : Str} (w : World) {op : SaveOp} (h : NotTo path op) : (saveStep w op).disk path = w.disk path := by
  cases op with
  | setattr o name v => simp only [saveStep]; split_ifs <;> rfl
  | write a k x => simp only [saveStep]; split_ifs <;> rfl
  | newArr a => rfl
  | newObj => rfl
  | save dropped o name keep ev =>
    simp only [saveStep]
    split_ifs
    · exact (save_facts dropped w o name keep ev).2.2.2.1 path (fun he => h he.symm)
    · rfl
  | load p =>
    simp only [saveStep, loadResults]
    split <;> rfl

/-- Only saving under the same file name changes a file: not changes to the object, to its arrays, loads or other saves. -/
theorem C83_file_kept {path : Str} (w : World) (ops : List SaveOp) (h : ∀ op ∈ ops, NotTo path op) :
    (saveRun w ops).disk path = w.disk path := by
  induction ops generalizing w with
  | nil => rfl
  | cons op t ih =>
    have := ih (saveStep w op) fun x hx => h x (List.mem_cons_of_mem _ hx)
    rw [show saveRun w (op :: t) = saveRun (saveStep w op) t from rfl, this, disk_step w (h op List.mem_cons_self)]

private theorem load_full {w : World} {path : Str} {at' : Attrs} {f : ℕ → Arr1 (Option ℝ)} {n : ℕ}
    (hd : w.disk path = some (.full at' f n)) (hb : ∀ p ∈ at', p.2.Below n) :
    (loadResults w path).2 = .ok w.nextObj ∧
    ∀ b, seen (loadResults w path).1 w.nextObj b = (getAttr at' b).map (seenVal f) := by
  unfold loadResults
  rw [hd]
  refine ⟨rfl, fun b => ?_⟩
  simp only [seen, World.allocObj, Function.update_self, getAttr_map, World.allocArrs]
  cases hg : getAttr at' b with
  | none => rfl
  | some v =>
    have hv := hb _ (getAttr_mem hg)
    cases v with
    | arr a =>
      simp only [AttrVal.Below] at hv
      simp only [Option.map_some, AttrVal.shift, seenVal]
      rw [if_pos ⟨by omega, by omega⟩, Nat.add_sub_cancel_left]
    | none => rfl
    | num x => rfl
    | str s => rfl

/-- A saved object can be loaded at any later time, after any history that does not save under the same file name: the new object has
exactly the attributes the saved one had at the time of saving; without `keep_data` the listed ones are `None`. -/
theorem C83_round_trip {w : World} (hw : Sound w) (dropped : List Str) {o : ℕ} (ho : o < w.nextObj) (name : Str) (keep : Bool)
    (ops : List SaveOp) (hops : ∀ op ∈ ops, NotTo (pklPath name) op) :
    (saveResults dropped w o name keep .completes).2 = .ok () ∧
    ∃ o', (loadResults (saveRun (saveResults dropped w o name keep .completes).1 ops) (pklPath name)).2 = .ok o' ∧
      (∀ b, seen (loadResults (saveRun (saveResults dropped w o name keep .completes).1 ops) (pklPath name)).1 o' b =
        if keep = false ∧ b ∈ dropped then some .none else seen w o b) := by
  refine ⟨rfl, ?_⟩
  obtain ⟨d1, d2, d3, d4, d5, d6, d7⟩ := dropData_facts dropped keep (w.deepcopy o).1 (w.deepcopy o).2
  have hdisk : (saveRun (saveResults dropped w o name keep .completes).1 ops).disk (pklPath name) =
      some (.full ((dropData dropped keep (w.deepcopy o).1 (w.deepcopy o).2).objs (w.deepcopy o).2) (w.deepcopy o).1.arrs
        (w.nextArr + w.nextArr)) := by
    rw [C83_file_kept _ ops hops]
    simp only [saveResults, writePickle, Function.update_self, d1, d2]
    rfl
  have hb := (sound_save hw dropped ho name keep .completes).files (pklPath name) _ _ _
    (by rw [← hdisk, C83_file_kept _ ops hops])
  obtain ⟨l1, l2⟩ := load_full hdisk hb
  refine ⟨_, l1, fun b => ?_⟩
  rw [l2 b, d6 b]
  split_ifs with hk
  · rfl
  · simp only [World.deepcopy, World.allocObj, Function.update_self, getAttr_map, seen, World.allocArrs]
    cases hg : getAttr (w.objs o) b with
    | none => rfl
    | some v =>
      have hv := hw.objs o ho _ (getAttr_mem hg)
      cases v with
      | arr a =>
        simp only [AttrVal.Below] at hv
        simp only [Option.map_some, AttrVal.shift, seenVal]
        rw [if_pos ⟨by omega, by omega⟩, Nat.add_sub_cancel_left]
      | none => rfl
      | num x => rfl
      | str s => rfl

/-- For all statistics but MVC: the input data come back when kept, and are `None` otherwise; everything else always comes back. -/
theorem C83_data {w : World} (hw : Sound w) {o : ℕ} (ho : o < w.nextObj) (name : Str) (keep : Bool) :
    ∃ o', (loadResults (saveResults baseDropped w o name keep .completes).1 (pklPath name)).2 = .ok o' ∧
      seen (loadResults (saveResults baseDropped w o name keep .completes).1 (pklPath name)).1 o' "_data".toList =
        (if keep then seen w o "_data".toList else some .none) ∧
      ∀ b, b ≠ "_data".toList →
        seen (loadResults (saveResults baseDropped w o name keep .completes).1 (pklPath name)).1 o' b = seen w o b := by
  obtain ⟨-, o', h1, h2⟩ := C83_round_trip hw baseDropped ho name keep [] (by simp)
  refine ⟨o', h1, ?_, fun b hb => ?_⟩
  · have := h2 "_data".toList
    rw [show saveRun (saveResults baseDropped w o name keep .completes).1 [] =
      (saveResults baseDropped w o name keep .completes).1 from rfl] at this
    rw [this]
    cases keep <;> simp [baseDropped]
  · have := h2 b
    rw [show saveRun (saveResults baseDropped w o name keep .completes).1 [] =
      (saveResults baseDropped w o name keep .completes).1 from rfl] at this
    rw [this, if_neg (fun h => hb (by simpa [baseDropped] using h.2))]

/-! ### the loaded object -/

/-- Loading changes no existing object and no file. -/
theorem C83_load_reads {w : World} (hw : Sound w) (path : Str) :
    (loadResults w path).1.disk = w.disk ∧
    ∀ o' < w.nextObj, ∀ b, seen (loadResults w path).1 o' b = seen w o' b := by
  unfold loadResults
  split
  · exact ⟨rfl, fun _ _ _ => rfl⟩
  · exact ⟨rfl, fun _ _ _ => rfl⟩
  · rename_i at' f n hd
    refine ⟨rfl, fun o' ho' b => ?_⟩
    simp only [seen, World.allocObj, World.allocArrs]
    rw [Function.update_of_ne (by omega)]
    cases hg : getAttr (w.objs o') b with
    | none => rfl
    | some v =>
      have hv := hw.objs o' ho' _ (getAttr_mem hg)
      cases v with
      | arr a =>
        simp only [AttrVal.Below] at hv
        simp only [Option.map_some, seenVal]
        rw [if_neg (by omega)]
      | none => rfl
      | num x => rfl
      | str s => rfl

/-- The loaded object shares no array with anything that existed before: writing into one of its arrays changes no older object, and
writing into an older array does not change the loaded object. -/
theorem C83_independent {w : World} (hw : Sound w) {path : Str} {o' : ℕ} (h : (loadResults w path).2 = .ok o') {b : Str} {a : ℕ}
    (ha : getAttr ((loadResults w path).1.objs o') b = some (.arr a)) (k : ℕ) (x : Option ℝ) :
    (∀ o < w.nextObj, ∀ c, seen (saveStep (loadResults w path).1 (.write a k x)) o c = seen w o c) ∧
    (∀ a' < w.nextArr, ∀ c, seen (saveStep (loadResults w path).1 (.write a' k x)) o' c = seen (loadResults w path).1 o' c) := by
  have hge : ∀ c a, getAttr ((loadResults w path).1.objs o') c = some (.arr a) → w.nextArr ≤ a := by
    intro c a ha
    unfold loadResults at h ha
    split at h
    · cases h
    · cases h
    · rename_i at' f n hd
      rw [hd] at ha
      simp only [Except.ok.injEq] at h
      subst h
      simp only [World.allocObj, Function.update_self, getAttr_map, World.allocArrs] at ha
      cases hg : getAttr at' c with
      | none => simp [hg] at ha
      | some v =>
        rw [hg] at ha
        cases v <;> simp [AttrVal.shift] at ha
        omega
  refine ⟨fun o ho c => ?_, fun a' ha' c => ?_⟩
  · rw [← (C83_load_reads hw path).2 o ho c]
    simp only [saveStep]
    split_ifs
    · have hobj : (loadResults w path).1.objs o = w.objs o := by
        unfold loadResults
        split
        · rfl
        · rfl
        · simp only [World.allocObj]
          exact Function.update_of_ne (Nat.ne_of_lt ho) _ _
      simp only [seen, hobj]
      cases hg : getAttr (w.objs o) c with
      | none => rfl
      | some v =>
        have hv := hw.objs o ho _ (getAttr_mem hg)
        cases v with
        | arr e =>
          simp only [AttrVal.Below] at hv
          have := hge b a ha
          simp only [Option.map_some, seenVal]
          rw [Function.update_of_ne (by omega)]
        | none => rfl
        | num x => rfl
        | str s => rfl
    · rfl
  · simp only [saveStep]
    split_ifs
    · simp only [seen]
      cases hg : getAttr ((loadResults w path).1.objs o') c with
      | none => rfl
      | some v =>
        cases v with
        | arr e =>
          have := hge c e hg
          simp only [Option.map_some, seenVal]
          rw [Function.update_of_ne (by omega)]
        | none => rfl
        | num x => rfl
        | str s => rfl
    · rfl

/-! ### what does not work -/

/-- Loading under the name given to `save_results` finds what was there before the save, when the name does not end in `.pkl`: the
suffix is added on saving only.  With no such file, loading fails. -/
theorem C83_name_violated (dropped : List Str) (w : World) (o : ℕ) {name : Str} (hn : ¬ pklSuffix <:+ name) (keep : Bool) :
    (saveResults dropped w o name keep .completes).1.disk name = w.disk name ∧
    (w.disk name = none → (loadResults (saveResults dropped w o name keep .completes).1 name).2 = .error .oserror) := by
  have hne : name ≠ pklPath name := by
    rw [(C83_one_file dropped w o name keep .completes).2.2.1 hn]
    intro h
    have := congrArg List.length h
    simp [pklSuffix] at this
  have h := (save_facts dropped w o name keep .completes).2.2.2.1 name hne
  refine ⟨h, fun h0 => ?_⟩
  unfold loadResults
  rw [h, h0]

/-- Two different names can mean one file: the results saved under `x` are replaced by those saved under `x.pkl`. -/
theorem C83_collision {name : Str} (hn : ¬ pklSuffix <:+ name) : name ≠ name ++ pklSuffix ∧ pklPath (name ++ pklSuffix) = pklPath name := by
  constructor
  · intro h
    have := congrArg List.length h
    simp [pklSuffix] at this
  · have h1 : pklSuffix <:+ name ++ pklSuffix := List.suffix_append _ _
    rw [pklPath, if_pos (List.isSuffixOf_iff_suffix.2 h1), pklPath, if_neg (fun h' => hn (List.isSuffixOf_iff_suffix.1 h'))]

/-- A save that is interrupted destroys the results saved earlier under that name, and nothing can be loaded; a file that cannot be
opened for writing keeps its contents. -/
theorem C83_interrupted_violated (dropped : List Str) (w : World) (o : ℕ) (name : Str) (keep : Bool) :
    (saveResults dropped w o name keep .interrupted).2 = .error .runtimeError ∧
    (loadResults (saveResults dropped w o name keep .interrupted).1 (pklPath name)).2 = .error .runtimeError ∧
    (saveResults dropped w o name keep .openFails).2 = .error .oserror ∧
    (saveResults dropped w o name keep .openFails).1.disk = w.disk := by
  refine ⟨rfl, ?_, rfl, ?_⟩
  · unfold loadResults
    have : (saveResults dropped w o name keep .interrupted).1.disk (pklPath name) = some .torn := by
      simp [saveResults, writePickle]
    rw [this]
  · obtain ⟨d1, d2, d3, d4, d5, d6, d7⟩ := dropData_facts dropped keep (w.deepcopy o).1 (w.deepcopy o).2
    simp only [saveResults, writePickle]
    rw [d4]
    rfl

private theorem getAttr_head (k : Str) (v : AttrVal) (t : Attrs) : getAttr ((k, v) :: t) k = some v := if_pos rfl

private theorem mvcInit_sound {w : World} (hw : Sound w) {c m l : ℕ} (hc : c < w.nextArr) (hm : m < w.nextArr) (hl : l < w.nextArr) :
    Sound (mvcInitWorld w c m l).1 ∧ (mvcInitWorld w c m l).2 < (mvcInitWorld w c m l).1.nextObj ∧
    seen (mvcInitWorld w c m l).1 (mvcInitWorld w c m l).2 "_data".toList = some (.arr (w.arrs c)) := by
  simp only [mvcInitWorld]
  split_ifs
  · refine ⟨⟨?_, fun p a f n h => hw.files p a f n h⟩, Nat.lt_succ_self _, ?_⟩
    · intro o ho p hp
      simp only [World.allocObj, World.allocArrs] at ho hp ⊢
      by_cases he : o = w.nextObj
      · subst he
        rw [Function.update_self] at hp
        simp only [List.mem_cons, List.not_mem_nil, or_false] at hp
        rcases hp with h | h | h | h <;> rw [h] <;> simp only [AttrVal.Below] <;> omega
      · rw [Function.update_of_ne he] at hp
        exact below_mono (by omega) (hw.objs o (by omega) p hp)
    · simp only [seen, World.allocObj, Function.update_self, World.allocArrs, getAttr_head, Option.map_some, seenVal]
      rw [if_neg (by omega)]
  · refine ⟨⟨?_, fun p a f n h => hw.files p a f n h⟩, Nat.lt_succ_self _, ?_⟩
    · intro o ho p hp
      simp only [World.allocObj] at ho hp ⊢
      by_cases he : o = w.nextObj
      · subst he
        rw [Function.update_self] at hp
        simp only [List.mem_cons, List.not_mem_nil, or_false] at hp
        rcases hp with h | h | h | h <;> rw [h] <;> simp only [AttrVal.Below] <;> omega
      · rw [Function.update_of_ne he] at hp
        exact hw.objs o (by omega) p hp
    · simp only [seen, World.allocObj, Function.update_self, getAttr_head, Option.map_some, seenVal]

/-- MVC results saved without the data still contain the centroid map: `MVC` keeps it in `_data`, which its `save_results` does not
clear. -/
theorem C83_mvc_violated {w : World} (hw : Sound w) {c m l : ℕ} (hc : c < w.nextArr) (hm : m < w.nextArr) (hl : l < w.nextArr)
    (name : Str) :
    let s := mvcInitWorld w c m l
    let f := saveResults mvcDropped s.1 s.2 name false .completes
    ∃ o', (loadResults f.1 (pklPath name)).2 = .ok o' ∧
      seen (loadResults f.1 (pklPath name)).1 o' "_data".toList = some (.arr (w.arrs c)) ∧
      seen (loadResults f.1 (pklPath name)).1 o' "_centroid".toList = some .none ∧
      seen (loadResults f.1 (pklPath name)).1 o' "_moment0".toList = some .none ∧
      seen (loadResults f.1 (pklPath name)).1 o' "_linewidth".toList = some .none := by
  obtain ⟨h1, h2, h3⟩ := mvcInit_sound hw hc hm hl
  obtain ⟨-, o', g1, g2⟩ := C83_round_trip h1 mvcDropped h2 name false [] (by simp)
  refine ⟨o', g1, ?_, ?_, ?_, ?_⟩
  · rw [← h3]
    exact (g2 _).trans (if_neg (by decide))
  · exact (g2 _).trans (if_pos (by decide))
  · exact (g2 _).trans (if_pos (by decide))
  · exact (g2 _).trans (if_pos (by decide))

/-- `PDF` results saved without the data still contain the whole image: it is also kept in `img`. -/
theorem C83_pdf_violated {w : World} (hw : Sound w) {img : ℕ} (hi : img < w.nextArr) (kept : Arr1 (Option ℝ)) (name : Str) :
    let s := pdfInitWorld w img kept
    let f := saveResults baseDropped s.1 s.2 name false .completes
    ∃ o', (loadResults f.1 (pklPath name)).2 = .ok o' ∧
      seen (loadResults f.1 (pklPath name)).1 o' "_data".toList = some .none ∧
      seen (loadResults f.1 (pklPath name)).1 o' "img".toList = some (.arr (w.arrs img)) := by
  have h1 : Sound (pdfInitWorld w img kept).1 := by
    refine ⟨?_, fun p a f n h => hw.files p a f n h⟩
    intro o ho p hp
    simp only [pdfInitWorld, World.allocObj, World.allocArrs] at ho hp ⊢
    by_cases he : o = w.nextObj
    · subst he
      rw [Function.update_self] at hp
      simp only [List.mem_cons, List.not_mem_nil, or_false] at hp
      rcases hp with rfl | rfl <;> simp only [AttrVal.Below] <;> omega
    · rw [Function.update_of_ne he] at hp
      exact below_mono (by omega) (hw.objs o (by omega) p hp)
  have h3 : seen (pdfInitWorld w img kept).1 (pdfInitWorld w img kept).2 "img".toList = some (.arr (w.arrs img)) := by
    simp only [seen, pdfInitWorld, World.allocObj, Function.update_self, World.allocArrs, getAttr_head, Option.map_some, seenVal]
    rw [if_neg (by omega)]
  obtain ⟨-, o', g1, g2⟩ := C83_round_trip h1 baseDropped (Nat.lt_succ_self _ : (pdfInitWorld w img kept).2 < _) name false [] (by simp)
  refine ⟨o', g1, ?_, ?_⟩
  · exact (g2 _).trans (if_pos (by decide))
  · rw [← h3]
    exact (g2 _).trans (if_neg (by decide))

/-- The full property, for the statistics whose only copy of the input is `_data`, when saving completes and the full file name is used
for loading: the object is unchanged, the file survives any history, and what is loaded is what was saved.  Missing: names without the
suffix, interrupted saves, MVC and PDF (see the violations). -/
theorem C83_save_load_partial {w : World} (hw : Sound w) {o : ℕ} (ho : o < w.nextObj) (name : Str) (keep : Bool)
    (ops : List SaveOp) (hops : ∀ op ∈ ops, NotTo (pklPath name) op) :
    (∀ b, seen (saveResults baseDropped w o name keep .completes).1 o b = seen w o b) ∧
    ∃ o', (loadResults (saveRun (saveResults baseDropped w o name keep .completes).1 ops) (pklPath name)).2 = .ok o' ∧
      ∀ b, seen (loadResults (saveRun (saveResults baseDropped w o name keep .completes).1 ops) (pklPath name)).1 o' b =
        if keep = false ∧ b = "_data".toList then some .none else seen w o b := by
  refine ⟨C83_unchanged hw baseDropped o name keep .completes ho, ?_⟩
  obtain ⟨-, o', h1, h2⟩ := C83_round_trip hw baseDropped ho name keep ops hops
  refine ⟨o', h1, fun b => ?_⟩
  rw [h2 b]
  simp [baseDropped]

/-- A history in which an object with two attributes sharing an array is saved, then changed, then saved elsewhere, then loaded: the
loaded object has the old value. -/
example : ∃ o', (loadResults (saveRun (saveResults baseDropped
      (saveRun emptyWorld [.newArr ⟨1, fun _ => some 2⟩, .newObj, .setattr 0 "slope".toList (.num (-3)), .setattr 0 "_data".toList (.arr 0),
        .setattr 0 "w".toList (.arr 0)]) 0 "a".toList false .completes).1
      [.setattr 0 "slope".toList (.num 7), .write 0 0 none, .save baseDropped 0 "b".toList true .completes]) "a.pkl".toList).2 = .ok o' ∧
    seen (loadResults (saveRun (saveResults baseDropped
      (saveRun emptyWorld [.newArr ⟨1, fun _ => some 2⟩, .newObj, .setattr 0 "slope".toList (.num (-3)), .setattr 0 "_data".toList (.arr 0),
        .setattr 0 "w".toList (.arr 0)]) 0 "a".toList false .completes).1
      [.setattr 0 "slope".toList (.num 7), .write 0 0 none, .save baseDropped 0 "b".toList true .completes]) "a.pkl".toList).1 o'
      "slope".toList = some (.num (-3)) := by
  have hw := C83_sound C83_empty_sound [.newArr ⟨1, fun _ => some 2⟩, .newObj, .setattr 0 "slope".toList (.num (-3)),
    .setattr 0 "_data".toList (.arr 0), .setattr 0 "w".toList (.arr 0)]
  have ho : 0 < (saveRun emptyWorld [.newArr ⟨1, fun _ => some 2⟩, .newObj, .setattr 0 "slope".toList (.num (-3)),
    .setattr 0 "_data".toList (.arr 0), .setattr 0 "w".toList (.arr 0)]).nextObj := by
    simp [saveRun, saveStep, World.allocObj, World.allocArrs, World.setattr, emptyWorld, AttrVal.Below]
  have hops : ∀ op ∈ [SaveOp.setattr 0 "slope".toList (.num 7), .write 0 0 none, .save baseDropped 0 "b".toList true .completes],
      NotTo (pklPath "a".toList) op := by
    intro op hop
    simp only [List.mem_cons, List.not_mem_nil, or_false] at hop
    rcases hop with rfl | rfl | rfl
    · trivial
    · trivial
    · show pklPath "b".toList ≠ pklPath "a".toList
      decide
  obtain ⟨-, o', h1, h2⟩ := C83_save_load_partial hw ho "a".toList false _ hops
  have hp : pklPath "a".toList = "a.pkl".toList := by decide
  rw [hp] at h1 h2
  refine ⟨o', h1, ?_⟩
  rw [h2, if_neg (by decide)]
  simp [saveRun, saveStep, World.allocObj, World.allocArrs, World.setattr, emptyWorld, AttrVal.Below, seen, setAttr, getAttr, seenVal]

end TS
