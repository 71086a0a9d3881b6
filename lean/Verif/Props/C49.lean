import Verif.Model.MomentErrs
import Mathlib.Tactic.Linarith
import Mathlib.Tactic.FieldSimp
import Mathlib.Tactic.NormNum

/-! C49 — moment errors: slice-wise equals cube-wise. -/

namespace TS
open Finset

namespace Spec

/-- Noise of one voxel as a number: a missing value in a noise cube counts as zero. -/
noncomputable def voxelNoise (s : Noise) (k y x : ℕ) : ℝ :=
  match s with
  | .const σ => σ.getD 0
  | .cube a => (a.get k y x).getD 0

/-- The noise level is a number (or a cube of numbers and gaps), of the shape of the cube. -/
def NoiseOk (c : SCube) : Noise → Prop
  | .const σ => ∃ v, σ = some v
  | .cube a => a.n = c.data.n ∧ a.m = c.data.m ∧ a.p = c.data.p

/-- Error of the zeroth moment: quadratic sum of the noise of the included voxels, times the channel width. -/
noncomputable def err0 (c : SCube) (s : Noise) (y x : ℕ) : ℝ :=
  Real.sqrt (∑ k ∈ (range c.data.n).filter (fun k => c.mask k y x), voxelNoise s k y x ^ 2) * c.pixSize 0

/-- Error of the first moment by propagation: ∂m₁/∂I_k = (v_k − m₁)/ΣI. -/
noncomputable def err1 (c : SCube) (s : Noise) (total centroid : ℝ) (y x : ℕ) : ℝ :=
  Real.sqrt (∑ k ∈ range c.data.n, (((c.spec0 + c.pixCen k y x) - centroid) / total * voxelNoise s k y x) ^ 2)

/-- Error of the second moment by propagation. -/
noncomputable def err2 (c : SCube) (s : Noise) (total centroid second cerr : ℝ) (y x : ℕ) : ℝ :=
  Real.sqrt (∑ k ∈ range c.data.n, ((((c.spec0 + c.pixCen k y x) - centroid) ^ 2 - second) / total * voxelNoise s k y x) ^ 2 +
    4 * (cerr * (∑ k ∈ range c.data.n, (c.data.get k y x).getD 0 * ((c.spec0 + c.pixCen k y x) - centroid)) / total) ^ 2)

end Spec
open Spec

theorem sumO_cons (a : Option ℝ) (l : List (Option ℝ)) : sumO (a :: l) = addO a (sumO l) := by
  unfold sumO addO
  rw [List.mapM_cons]
  cases a with
  | none => rfl
  | some v =>
    cases h : l.mapM id with
    | none => simp [h, Option.bind]
    | some w => simp [h]

theorem addO_assoc (a b c : Option ℝ) : addO (addO a b) c = addO a (addO b c) := by
  cases a <;> cases b <;> cases c <;> simp [addO, add_assoc]

theorem foldl_addO (l : List ℕ) (f : ℕ → Option ℝ) (a : Option ℝ) :
    l.foldl (fun s k => addO s (f k)) a = addO a (sumO (l.map f)) := by
  induction l generalizing a with
  | nil => cases a <;> simp [sumO, addO]
  | cons x xs ih => rw [List.foldl_cons, ih, List.map_cons, sumO_cons, addO_assoc]

theorem addO_zero_left (a : Option ℝ) : addO (some 0) a = a := by cases a <;> simp [addO]

theorem sumO_some (n : ℕ) (f : ℕ → ℝ) : sumO ((List.range n).map (fun k => some (f k))) = some (∑ k ∈ range n, f k) := by
  have h : ∀ l : List ℕ, sumO (l.map (fun k => some (f k))) = some ((l.map f).sum) := by
    intro l
    induction l with
    | nil => simp [sumO]
    | cons x xs ih => rw [List.map_cons, sumO_cons, ih]; simp [addO]
  rw [h, ← List.sum_toFinset _ List.nodup_range, List.toFinset_range]

theorem sumO_none (l : List (Option ℝ)) (h : none ∈ l) : sumO l = none := by
  induction l with
  | nil => simp at h
  | cons a l ih =>
    rw [sumO_cons]
    rcases List.mem_cons.1 h with e | e
    · subst e; rfl
    · rw [ih e]; cases a <;> rfl

private theorem plane_fold (l : List ℕ) (f : ℕ → ℕ → ℕ → Option ℝ) (st : ℕ → ℕ → Option ℝ) (y x : ℕ) :
    (l.foldl (fun (st : ℕ → ℕ → Option ℝ) i => fun y x => addO (st y x) (f i y x)) st) y x =
      addO (st y x) (sumO (l.map (fun k => f k y x))) := by
  induction l generalizing st with
  | nil => cases h : st y x <;> simp [sumO, addO, h]
  | cons i l ih => rw [List.foldl_cons, ih, List.map_cons, sumO_cons, addO_assoc]

private theorem plane_fold2 {α : Type*} (l : List ℕ) (f : ℕ → ℕ → ℕ → Option ℝ) (g : ℕ → (ℕ → ℕ → α) → (ℕ → ℕ → α))
    (st : (ℕ → ℕ → Option ℝ) × (ℕ → ℕ → α)) (y x : ℕ) :
    ((l.foldl (fun (st : (ℕ → ℕ → Option ℝ) × (ℕ → ℕ → α)) i => (fun y x => addO (st.1 y x) (f i y x), g i st.2)) st).1 y x =
      addO (st.1 y x) (sumO (l.map (fun k => f k y x)))) ∧
    (l.foldl (fun (st : (ℕ → ℕ → Option ℝ) × (ℕ → ℕ → α)) i => (fun y x => addO (st.1 y x) (f i y x), g i st.2)) st).2 =
      l.foldl (fun s i => g i s) st.2 := by
  induction l generalizing st with
  | nil => exact ⟨by cases h : st.1 y x <;> simp [sumO, addO, h], rfl⟩
  | cons i l ih =>
    rw [List.foldl_cons, List.foldl_cons, List.map_cons, sumO_cons, (ih _).1, (ih _).2, addO_assoc]
    exact ⟨rfl, rfl⟩

private theorem valid_fold (l : List ℕ) (m : ℕ → ℕ → ℕ → Bool) (st : ℕ → ℕ → Bool) (y x : ℕ) :
    (l.foldl (fun (s : ℕ → ℕ → Bool) i => fun y x => s y x || m i y x) st) y x = (st y x || l.any (fun i => m i y x)) := by
  induction l generalizing st with
  | nil => simp
  | cons i l ih => rw [List.foldl_cons, ih]; simp [Bool.or_assoc]

private theorem slice0_eq (c : SCube) (axis : ℕ) (s : Noise) (h : checkNoise c s = .ok ()) :
    ∃ a, slice0 c axis s = .ok a ∧ a.n = (c.data.skySize axis).1 ∧ a.m = (c.data.skySize axis).2 ∧ ∀ y x, a.get y x =
      if (List.range (c.data.len axis)).any (fun i => along axis c.mask i y x) then
        (sumO ((List.range (c.data.len axis)).map (fun k => boolMul (along axis c.mask k y x) (powO (noisePlane s axis k y x))))).map
          (fun t => Real.sqrt t * c.pixSize axis) else none := by
  unfold slice0
  simp only [h, bind, Except.bind, pure, Except.pure]
  refine ⟨_, rfl, rfl, rfl, ?_⟩
  intro y x
  have key := plane_fold2 (List.range (c.data.len axis))
    (fun i y x => boolMul (along axis c.mask i y x) (powO (noisePlane s axis i y x)))
    (fun i (v : ℕ → ℕ → Bool) => fun y x => v y x || along axis c.mask i y x)
    (fun _ _ => some 0, fun _ _ => false) y x
  simp only
  rw [key.1, key.2, addO_zero_left, valid_fold (List.range (c.data.len axis)) (fun i y x => along axis c.mask i y x)]
  simp

/-- Along any axis: at pixels with at least one included voxel, both computations of the zeroth moment error agree. Missing: pixels
without any included voxel (`C49_moment0_violated`). -/
theorem C49_moment0_agree_partial (strategy : How) (c : SCube) (s : Noise) (axis : ℕ) (h : checkNoise c s = .ok ()) :
    ∃ a b, moment0Error strategy .slice c s axis = .ok a ∧ moment0Error strategy .cube c s axis = .ok b ∧ a.n = b.n ∧ a.m = b.m ∧
      ∀ y x, (∃ k < c.data.len axis, along axis c.mask k y x = true) → a.get y x = b.get y x := by
  obtain ⟨a, ha, h1, h2, h3⟩ := slice0_eq c axis s h
  refine ⟨a, ⟨(c.data.skySize axis).1, (c.data.skySize axis).2, fun y x => (sumO ((List.range (c.data.len axis)).map (fun k =>
      boolMul (along axis c.mask k y x) (powO (noisePlane s axis k y x))))).map (fun t => Real.sqrt t * c.pixSize axis)⟩,
      ha, ?_, h1, h2, ?_⟩
  · unfold moment0Error pickHow cube0
    simp only [h, bind, Except.bind, pure, Except.pure]
  · rintro y x ⟨k, hk, hm⟩
    rw [h3, if_pos]
    rw [List.any_eq_true]
    exact ⟨k, List.mem_range.2 hk, hm⟩

/-- At a fully masked pixel the slice-wise error is NaN and the cube-wise error is 0. -/
theorem C49_moment0_violated (strategy : How) (c : SCube) (σ : ℝ) (y x : ℕ) (hm : ∀ k < c.data.n, c.mask k y x = false) :
    ∃ a b, moment0Error strategy .slice c (.const (some σ)) 0 = .ok a ∧ moment0Error strategy .cube c (.const (some σ)) 0 = .ok b ∧
      a.get y x = none ∧ b.get y x = some 0 := by
  obtain ⟨a, ha, h1, h2, h3⟩ := slice0_eq c 0 (.const (some σ)) rfl
  refine ⟨a, _, ha, rfl, ?_, ?_⟩
  · rw [h3, if_neg]
    rw [List.any_eq_true]
    rintro ⟨k, hk, hk'⟩
    have := hm k (List.mem_range.1 hk)
    simp only [along] at hk'
    rw [this] at hk'
    cases hk'
  · have : ((List.range (c.data.len 0)).map (fun k => boolMul (along 0 c.mask k y x) (powO (noisePlane (.const (some σ)) 0 k y x)))) =
        (List.range (c.data.len 0)).map (fun _ => some (0 : ℝ)) := by
      apply List.map_congr_left
      intro k hk
      have := hm k (List.mem_range.1 hk)
      simp only [along, this, boolMul, powO, noisePlane, mulO]
      simp
    simp only
    rw [this, sumO_some (c.data.len 0) (fun _ => 0)]
    simp

theorem noisePlane_ok {c : SCube} {s : Noise} (h : NoiseOk c s) (k y x : ℕ) : noisePlane s 0 k y x = some (voxelNoise s k y x) := by
  cases s with
  | const σ => obtain ⟨v, rfl⟩ := h; rfl
  | cube a => rfl

theorem checkNoise_ok {c : SCube} {s : Noise} (h : NoiseOk c s) : checkNoise c s = .ok () := by
  cases s with
  | const σ => rfl
  | cube a => exact if_pos h

/-- The zeroth moment error, whichever way it is computed. -/
theorem C49_moment0_value (strategy how : How) (hh : how = .slice ∨ how = .cube) (c : SCube) (s : Noise) (hs : NoiseOk c s) :
    ∃ a, moment0Error strategy how c s 0 = .ok a ∧ a.n = c.data.m ∧ a.m = c.data.p ∧
      ∀ y x, (∃ k < c.data.n, c.mask k y x = true) → a.get y x = some (err0 c s y x) := by
  have hc := checkNoise_ok hs
  have hv : ∀ y x, (sumO ((List.range (c.data.len 0)).map (fun k =>
      boolMul (along 0 c.mask k y x) (powO (noisePlane s 0 k y x))))).map (fun t => Real.sqrt t * c.pixSize 0) = some (err0 c s y x) := by
    intro y x
    have : ((List.range (c.data.len 0)).map (fun k => boolMul (along 0 c.mask k y x) (powO (noisePlane s 0 k y x)))) =
        (List.range c.data.n).map (fun k => some (if c.mask k y x then voxelNoise s k y x ^ 2 else 0)) := by
      apply List.map_congr_left
      intro k _
      rw [noisePlane_ok hs]
      simp only [along, boolMul, powO, mulO]
      cases c.mask k y x <;> simp
    rw [this, sumO_some]
    simp only [Option.map_some, err0, sum_filter]
  rcases hh with rfl | rfl
  · obtain ⟨a, ha, h1, h2, h3⟩ := slice0_eq c 0 s hc
    refine ⟨a, ha, h1, h2, ?_⟩
    rintro y x ⟨k, hk, hm⟩
    rw [h3, if_pos, hv]
    rw [List.any_eq_true]
    exact ⟨k, List.mem_range.2 hk, hm⟩
  · have e : moment0Error strategy .cube c s 0 = cube0 c 0 s := rfl
    rw [e]
    unfold cube0
    simp only [hc, bind, Except.bind, pure, Except.pure]
    refine ⟨_, rfl, rfl, rfl, ?_⟩
    intro y x _
    exact hv y x

private theorem first_term (c : SCube) (m0 m1 : Arr2 (Option ℝ)) (k y x : ℕ) (nz : Option ℝ)
    (h : m0.get y x = none ∨ m1.get y x = none) :
    powO (mulO (subO (divO (some (c.pixCen k y x)) (axisSum c m0 y x)) (divO (m1.get y x) (axisSum c m0 y x))) nz) = none := by
  rcases h with h | h
  · have : axisSum c m0 y x = none := by unfold axisSum; rw [h]; rfl
    rw [this]; rfl
  · rw [h]
    cases divO (some (c.pixCen k y x)) (axisSum c m0 y x) <;> rfl

/-- First moment error: the two computations agree at every pixel, NaN or not, when the noise level is a number. Missing: a noise level
that is NaN (`C49_moment1_nan_noise_violated`). -/
theorem C49_moment1_agree_partial (strategy : How) (c : SCube) (s : Noise) (hs : NoiseOk c s) (hn : 0 < c.data.n) (m0 m1 : Arr2 (Option ℝ)) :
    ∃ a b, moment1Error strategy .slice c s m0 m1 = .ok a ∧ moment1Error strategy .cube c s m0 m1 = .ok b ∧ a.n = b.n ∧ a.m = b.m ∧
      ∀ y x, a.get y x = b.get y x := by
  have hc := checkNoise_ok hs
  unfold moment1Error pickHow slice1 cube1
  simp only [hc, bind, Except.bind, pure, Except.pure]
  refine ⟨_, _, rfl, rfl, rfl, rfl, ?_⟩
  intro y x
  simp only
  rw [plane_fold (List.range c.data.n) (fun i y x => powO (mulO
      (subO (divO (some (c.pixCen i y x)) (axisSum c m0 y x)) (divO ((relCentroid c m1).get y x) (axisSum c m0 y x)))
      (noisePlane s 0 i y x))), addO_zero_left]
  have hnn : ∀ k, some (nanToNum (noisePlane s 0 k y x)) = noisePlane s 0 k y x := by
    intro k; rw [noisePlane_ok hs]; rfl
  simp only [hnn]
  by_cases hg : ((m0.get y x).isSome || ((relCentroid c m1).get y x).isSome) = true
  · rw [if_pos hg]
  · rw [if_neg hg]
    rw [Bool.not_eq_true, Bool.or_eq_false_iff] at hg
    have h0 : m0.get y x = none := by simpa using hg.1
    have : sumO ((List.range c.data.n).map (fun k => powO (mulO
      (subO (divO (some (c.pixCen k y x)) (axisSum c m0 y x)) (divO ((relCentroid c m1).get y x) (axisSum c m0 y x)))
      (noisePlane s 0 k y x)))) = none := by
      apply sumO_none
      rw [List.mem_map]
      exact ⟨0, List.mem_range.2 hn, first_term c m0 _ 0 y x _ (Or.inl h0)⟩
    rw [this]; rfl

/-- With NaN as noise level they disagree: slice-wise NaN, cube-wise 0. -/
theorem C49_moment1_nan_noise_violated (strategy : How) (c : SCube) (hn : 0 < c.data.n) (m0 m1 : Arr2 (Option ℝ)) (y x : ℕ) (S b : ℝ)
    (hS : S ≠ 0) (hw : c.pixSize 0 ≠ 0) (h0 : m0.get y x = some S) (h1 : m1.get y x = some b) :
    ∃ a' b', moment1Error strategy .slice c (.const none) m0 m1 = .ok a' ∧ moment1Error strategy .cube c (.const none) m0 m1 = .ok b' ∧
      a'.get y x = none ∧ b'.get y x = some 0 := by
  refine ⟨_, _, by unfold moment1Error pickHow slice1; simp only [checkNoise, bind, Except.bind, pure, Except.pure]; rfl,
    by unfold moment1Error pickHow cube1; simp only [checkNoise, bind, Except.bind, pure, Except.pure]; rfl, ?_, ?_⟩
  · simp only
    rw [plane_fold (List.range c.data.n) (fun i y x => powO (mulO
      (subO (divO (some (c.pixCen i y x)) (axisSum c m0 y x)) (divO ((relCentroid c m1).get y x) (axisSum c m0 y x)))
      (noisePlane (.const none) 0 i y x))), addO_zero_left, sumO_none]
    · rfl
    · rw [List.mem_map]
      refine ⟨0, List.mem_range.2 hn, ?_⟩
      simp only [noisePlane]
      cases (subO (divO (some (c.pixCen 0 y x)) (axisSum c m0 y x)) (divO ((relCentroid c m1).get y x) (axisSum c m0 y x))) <;> rfl
  · have hax : axisSum c m0 y x = some (S / c.pixSize 0) := by
      unfold axisSum; rw [h0]; simp [divO, hw]
    have hq : S / c.pixSize 0 ≠ 0 := div_ne_zero hS hw
    have hrel : (relCentroid c m1).get y x = some (b - c.spec0) := by
      unfold relCentroid Arr2.map; simp only; rw [h1]; rfl
    simp only [h0, hax, hrel, Option.isSome_some, Bool.true_or, if_true, noisePlane, nanToNum, Option.getD_none]
    have : ∀ k, powO (mulO (subO (divO (some (c.pixCen k y x)) (some (S / c.pixSize 0))) (divO (some (b - c.spec0)) (some (S / c.pixSize 0))))
        (some 0)) = some ((fun _ => (0 : ℝ)) k) := by
      intro k; simp [powO, mulO, subO, divO, hq]
    simp only [this]
    rw [sumO_some]
    simp

/-- The first moment error, whichever way it is computed. -/
theorem C49_moment1_value (strategy how : How) (hh : how = .slice ∨ how = .cube) (c : SCube) (s : Noise) (hs : NoiseOk c s)
    (hn : 0 < c.data.n) (hw : c.pixSize 0 ≠ 0) (m0 m1 : Arr2 (Option ℝ)) :
    ∃ a, moment1Error strategy how c s m0 m1 = .ok a ∧ a.n = c.data.m ∧ a.m = c.data.p ∧ ∀ y x M b, M ≠ 0 → m0.get y x = some M →
      m1.get y x = some b → a.get y x = some (err1 c s (M / c.pixSize 0) b y x) := by
  have hc := checkNoise_ok hs
  obtain ⟨a, b, ha, hb, e1, e2, e3⟩ := C49_moment1_agree_partial strategy c s hs hn m0 m1
  have hcube : moment1Error strategy .cube c s m0 m1 = cube1 c s m0 (relCentroid c m1) := rfl
  have hbv : b.n = c.data.m ∧ b.m = c.data.p ∧ ∀ y x M b', M ≠ 0 → m0.get y x = some M →
      m1.get y x = some b' → b.get y x = some (err1 c s (M / c.pixSize 0) b' y x) := by
    rw [hcube] at hb
    unfold cube1 at hb
    simp only [hc, bind, Except.bind, pure, Except.pure] at hb
    injection hb with hb
    subst hb
    refine ⟨rfl, rfl, ?_⟩
    intro y x M b' hM h0 h1
    have hax : axisSum c m0 y x = some (M / c.pixSize 0) := by
      unfold axisSum; rw [h0]; simp [divO, hw]
    have hq : M / c.pixSize 0 ≠ 0 := div_ne_zero hM hw
    have hrel : (relCentroid c m1).get y x = some (b' - c.spec0) := by
      unfold relCentroid Arr2.map; simp only; rw [h1]; rfl
    simp only [h0, hax, hrel, Option.isSome_some, Bool.true_or, if_true]
    have : ∀ k, powO (mulO (subO (divO (some (c.pixCen k y x)) (some (M / c.pixSize 0))) (divO (some (b' - c.spec0)) (some (M / c.pixSize 0))))
        (some (nanToNum (noisePlane s 0 k y x)))) =
        some (((fun k => (((c.spec0 + c.pixCen k y x) - b') / (M / c.pixSize 0) * voxelNoise s k y x) ^ 2)) k) := by
      intro k
      rw [noisePlane_ok hs]
      simp only [powO, mulO, subO, divO, nanToNum, bind, Option.bind, if_neg hq, pure, Option.map_some, Option.getD_some, Option.some.injEq]
      rw [← sub_div]
      congr 2
      congr 1
      ring
    simp only [this]
    rw [sumO_some]
    rfl
  rcases hh with rfl | rfl
  · refine ⟨a, ha, e1.trans hbv.1, e2.trans hbv.2.1, ?_⟩
    intro y x M b' hM h0 h1
    rw [e3, hbv.2.2 y x M b' hM h0 h1]
  · exact ⟨b, hb, hbv⟩

/-- Second moment error: the two computations agree at every pixel, whatever the noise. -/
theorem C49_moment2_agree (strategy : How) (c : SCube) (s : Noise) (hc : checkNoise c s = .ok ()) (hn : 0 < c.data.n)
    (m0 m1 m2 : Arr2 (Option ℝ)) (m1e : Option (Arr2 (Option ℝ))) :
    ∃ a b, moment2Error strategy .slice c s m0 m1 m2 m1e = .ok a ∧ moment2Error strategy .cube c s m0 m1 m2 m1e = .ok b ∧
      a.n = b.n ∧ a.m = b.m ∧ ∀ y x, a.get y x = b.get y x := by
  have key : ∀ e, ∃ a b, slice2 c s m0 (relCentroid c m1) m2 e = .ok a ∧ cube2 c s m0 (relCentroid c m1) m2 e = .ok b ∧
      a.n = b.n ∧ a.m = b.m ∧ ∀ y x, a.get y x = b.get y x := by
    intro e
    unfold slice2 cube2
    simp only [hc, bind, Except.bind, pure, Except.pure]
    refine ⟨_, _, rfl, rfl, rfl, rfl, ?_⟩
    intro y x
    have k2 := plane_fold2 (List.range c.data.n) (fun i y x => mom2Term c s m0 (relCentroid c m1) m2 i y x)
      (fun i (v : ℕ → ℕ → Option ℝ) => fun y x => addO (v y x) (mom2Lever c (relCentroid c m1) i y x))
      (fun _ _ => some 0, fun _ _ => some 0) y x
    simp only
    rw [k2.1, k2.2, plane_fold (List.range c.data.n) (fun i y x => mom2Lever c (relCentroid c m1) i y x), addO_zero_left, addO_zero_left]
    by_cases hg : ((m0.get y x).isSome || ((relCentroid c m1).get y x).isSome || (m2.get y x).isSome) = true
    · rw [if_pos hg]
    · rw [if_neg hg]
      rw [Bool.not_eq_true, Bool.or_eq_false_iff, Bool.or_eq_false_iff] at hg
      have h0 : m0.get y x = none := by simpa using hg.1.1
      have hax : axisSum c m0 y x = none := by unfold axisSum; rw [h0]; rfl
      have : sumO ((List.range c.data.n).map (fun k => mom2Term c s m0 (relCentroid c m1) m2 k y x)) = none := by
        apply sumO_none
        rw [List.mem_map]
        refine ⟨0, List.mem_range.2 hn, ?_⟩
        unfold mom2Term
        rw [hax]
        cases powO (subO (some (c.pixCen 0 y x)) ((relCentroid c m1).get y x)) <;> rfl
      rw [this]; rfl
  unfold moment2Error
  cases m1e with
  | some e => exact key e
  | none =>
    unfold cube1
    simp only [hc, bind, Except.bind, pure, Except.pure, pickHow]
    exact key _

/-- The second moment error, whichever way it is computed. -/
theorem C49_moment2_value (strategy how : How) (hh : how = .slice ∨ how = .cube) (c : SCube) (s : Noise) (hs : NoiseOk c s)
    (hn : 0 < c.data.n) (hw : c.pixSize 0 ≠ 0) (m0 m1 m2 m1e : Arr2 (Option ℝ)) :
    ∃ a, moment2Error strategy how c s m0 m1 m2 (some m1e) = .ok a ∧ ∀ y x M b v e, M ≠ 0 → m0.get y x = some M →
      m1.get y x = some b → m2.get y x = some v → m1e.get y x = some e →
        a.get y x = some (err2 c s (M / c.pixSize 0) b v e y x) := by
  have hc := checkNoise_ok hs
  obtain ⟨a, b, ha, hb, e1, e2, e3⟩ := C49_moment2_agree strategy c s hc hn m0 m1 m2 (some m1e)
  have hbv : ∀ y x M b' v e, M ≠ 0 → m0.get y x = some M →
      m1.get y x = some b' → m2.get y x = some v → m1e.get y x = some e →
        b.get y x = some (err2 c s (M / c.pixSize 0) b' v e y x) := by
    unfold moment2Error at hb
    simp only [pickHow, pure, Except.pure, bind, Except.bind] at hb
    unfold cube2 at hb
    simp only [hc, bind, Except.bind, pure, Except.pure] at hb
    injection hb with hb
    subst hb
    intro y x M b' v e hM h0 h1 h2 h3
    have hax : axisSum c m0 y x = some (M / c.pixSize 0) := by
      unfold axisSum; rw [h0]; simp [divO, hw]
    have hq : M / c.pixSize 0 ≠ 0 := div_ne_zero hM hw
    have hrel : (relCentroid c m1).get y x = some (b' - c.spec0) := by
      unfold relCentroid Arr2.map; simp only; rw [h1]; rfl
    have t1 : ∀ k, mom2Term c s m0 (relCentroid c m1) m2 k y x =
        some ((fun k => ((((c.spec0 + c.pixCen k y x) - b') ^ 2 - v) / (M / c.pixSize 0) * voxelNoise s k y x) ^ 2) k) := by
      intro k
      unfold mom2Term
      rw [hax, hrel, h2, noisePlane_ok hs]
      simp only [powO, mulO, subO, divO, bind, Option.bind, if_neg hq, pure, Option.map_some, Option.some.injEq]
      rw [← sub_div]
      congr 3
      congr 1
      ring
    have t2 : ∀ k, mom2Lever c (relCentroid c m1) k y x =
        some ((fun k => (c.data.get k y x).getD 0 * ((c.spec0 + c.pixCen k y x) - b')) k) := by
      intro k
      unfold mom2Lever
      rw [hrel]
      simp only [mulO, subO, nanToNum, bind, Option.bind, pure, Option.some.injEq]
      ring
    simp only [h0, Option.isSome_some, Bool.true_or, if_true, t1, t2]
    rw [sumO_some, sumO_some]
    unfold mom2Second
    rw [hax, h3]
    simp only [powO, mulO, divO, addO, bind, Option.bind, if_neg hq, pure, Option.map_some, err2]
  rcases hh with rfl | rfl
  · refine ⟨a, ha, ?_⟩
    intro y x M b' v e hM h0 h1 h2 h3
    rw [e3, hbv y x M b' v e hM h0 h1 h2 h3]
  · exact ⟨b, hb, hbv⟩

/-- Errors are never negative. -/
theorem C49_nonneg (strategy how : How) (c : SCube) (s : Noise) (axis : ℕ) (m0 m1 m2 : Arr2 (Option ℝ)) (m1e : Option (Arr2 (Option ℝ)))
    (hw : 0 ≤ c.pixSize axis) (y x : ℕ) (v : ℝ) :
    (∀ a, moment0Error strategy how c s axis = .ok a → a.get y x = some v → 0 ≤ v) ∧
    (∀ a, moment1Error strategy how c s m0 m1 = .ok a → a.get y x = some v → 0 ≤ v) ∧
    (∀ a, moment2Error strategy how c s m0 m1 m2 m1e = .ok a → a.get y x = some v → 0 ≤ v) := by
  have sq : ∀ (o : Option ℝ), o.map Real.sqrt = some v → 0 ≤ v := by
    intro o h
    cases o with
    | none => cases h
    | some t => simp only [Option.map_some, Option.some.injEq] at h; rw [← h]; exact Real.sqrt_nonneg _
  have sqw : ∀ (o : Option ℝ), o.map (fun t => Real.sqrt t * c.pixSize axis) = some v → 0 ≤ v := by
    intro o h
    cases o with
    | none => cases h
    | some t => simp only [Option.map_some, Option.some.injEq] at h; rw [← h]; exact mul_nonneg (Real.sqrt_nonneg _) hw
  have n1 : ∀ a m1', (cube1 c s m0 m1' = .ok a ∨ slice1 c s m0 m1' = .ok a) → a.get y x = some v → 0 ≤ v := by
    intro a m1' h hv
    cases hc : checkNoise c s with
    | error e => rcases h with h | h <;> · simp only [cube1, slice1, hc, bind, Except.bind] at h; cases h
    | ok u =>
      rcases h with h | h
      · simp only [cube1, hc, bind, Except.bind, pure, Except.pure] at h
        injection h with h; subst h
        simp only at hv
        split_ifs at hv
        exact sq _ hv
      · simp only [slice1, hc, bind, Except.bind, pure, Except.pure] at h
        injection h with h; subst h
        exact sq _ hv
  refine ⟨?_, ?_, ?_⟩
  · intro a h hv
    unfold moment0Error at h
    cases hc : checkNoise c s with
    | error e =>
      split at h
      · simp only [cube0, hc, bind, Except.bind] at h; cases h
      · simp only [slice0, hc, bind, Except.bind] at h; cases h
      · cases h
    | ok u =>
      split at h
      · simp only [cube0, hc, bind, Except.bind, pure, Except.pure] at h
        injection h with h; subst h
        exact sqw _ hv
      · simp only [slice0, hc, bind, Except.bind, pure, Except.pure] at h
        injection h with h; subst h
        simp only at hv
        split_ifs at hv
        exact sqw _ hv
      · cases h
  · intro a h hv
    unfold moment1Error at h
    split at h
    · exact n1 a _ (Or.inl h) hv
    · exact n1 a _ (Or.inr h) hv
    · cases h
  · intro a h hv
    unfold moment2Error at h
    cases hc : checkNoise c s with
    | error e =>
      cases m1e with
      | none => simp only [cube1, hc, bind, Except.bind] at h; cases h
      | some e =>
        simp only [pure, Except.pure, bind, Except.bind] at h
        split at h
        · simp only [cube2, hc, bind, Except.bind] at h; cases h
        · simp only [slice2, hc, bind, Except.bind] at h; cases h
        · cases h
    | ok u =>
      have n2 : ∀ e m1', (cube2 c s m0 m1' m2 e = .ok a ∨ slice2 c s m0 m1' m2 e = .ok a) → 0 ≤ v := by
        intro e m1' h
        rcases h with h | h
        · simp only [cube2, hc, bind, Except.bind, pure, Except.pure] at h
          injection h with h; subst h
          simp only at hv
          split_ifs at hv
          exact sq _ hv
        · simp only [slice2, hc, bind, Except.bind, pure, Except.pure] at h
          injection h with h; subst h
          exact sq _ hv
      cases m1e with
      | none =>
        simp only [cube1, hc, bind, Except.bind, pure, Except.pure] at h
        split at h
        · exact n2 _ _ (Or.inl h)
        · exact n2 _ _ (Or.inr h)
        · cases h
      | some e =>
        simp only [pure, Except.pure, bind, Except.bind] at h
        split at h
        · exact n2 _ _ (Or.inl h)
        · exact n2 _ _ (Or.inr h)
        · cases h

/-- An unknown `how`, and an explicit 'ray', are refused with ValueError. -/
theorem C49_unknown_how (strategy how : How) (hh : how = .other ∨ how = .ray) (c : SCube) (s : Noise) (axis : ℕ)
    (hc : checkNoise c s = .ok ()) (m0 m1 m2 : Arr2 (Option ℝ)) (m1e : Option (Arr2 (Option ℝ))) :
    moment0Error strategy how c s axis = .error .valueError ∧ moment1Error strategy how c s m0 m1 = .error .valueError ∧
      moment2Error strategy how c s m0 m1 m2 m1e = .error .valueError := by
  rcases hh with rfl | rfl <;> refine ⟨rfl, rfl, ?_⟩ <;> cases m1e <;>
    simp [moment2Error, pickHow, cube1, hc, bind, Except.bind, pure, Except.pure]

/-- A noise cube of another shape is refused with IndexError. -/
theorem C49_noise_shape (strategy how : How) (hh : how = .slice ∨ how = .cube) (c : SCube) (a : Arr3 (Option ℝ)) (axis : ℕ)
    (h : ¬ (a.n = c.data.n ∧ a.m = c.data.m ∧ a.p = c.data.p)) (m0 m1 m2 : Arr2 (Option ℝ)) (m1e : Option (Arr2 (Option ℝ))) :
    moment0Error strategy how c (.cube a) axis = .error .indexError ∧ moment1Error strategy how c (.cube a) m0 m1 = .error .indexError ∧
      moment2Error strategy how c (.cube a) m0 m1 m2 m1e = .error .indexError := by
  have hc : checkNoise c (.cube a) = .error .indexError := by unfold checkNoise; simp only; rw [if_neg h]
  rcases hh with rfl | rfl
  · refine ⟨?_, ?_, ?_⟩
    · simp only [moment0Error, pickHow, slice0, hc, bind, Except.bind]
    · simp only [moment1Error, pickHow, slice1, hc, bind, Except.bind]
    · cases m1e
      · simp only [moment2Error, pickHow, cube1, hc, bind, Except.bind]
      · simp only [moment2Error, pickHow, slice2, hc, bind, Except.bind, pure, Except.pure]
  · refine ⟨?_, ?_, ?_⟩
    · simp only [moment0Error, pickHow, cube0, hc, bind, Except.bind]
    · simp only [moment1Error, pickHow, cube1, hc, bind, Except.bind]
    · cases m1e
      · simp only [moment2Error, pickHow, cube1, hc, bind, Except.bind]
      · simp only [moment2Error, pickHow, cube2, hc, bind, Except.bind, pure, Except.pure]

/-- 'auto' does what the chosen method does ('ray' becomes 'slice'). -/
theorem C49_auto (strategy : How) (c : SCube) (s : Noise) (axis : ℕ) (hst : strategy ≠ .auto) (m0 m1 m2 : Arr2 (Option ℝ))
    (m1e : Option (Arr2 (Option ℝ))) :
    let how := if strategy = .ray then .slice else strategy
    moment0Error strategy .auto c s axis = moment0Error strategy how c s axis ∧
    moment1Error strategy .auto c s m0 m1 = moment1Error strategy how c s m0 m1 ∧
    moment2Error strategy .auto c s m0 m1 m2 m1e = moment2Error strategy how c s m0 m1 m2 m1e := by
  cases strategy <;> first | exact ⟨rfl, rfl, rfl⟩ | exact absurd rfl hst

/-- So the memory size does not decide the first and second moment errors, at any pixel. -/
theorem C49_auto_same (st st' : How) (hs : st = .ray ∨ st = .slice ∨ st = .cube) (hs' : st' = .ray ∨ st' = .slice ∨ st' = .cube)
    (c : SCube) (s : Noise) (hn : 0 < c.data.n) (hok : NoiseOk c s) (hc : checkNoise c s = .ok ()) (m0 m1 m2 : Arr2 (Option ℝ))
    (m1e : Option (Arr2 (Option ℝ))) :
    (∃ a b, moment1Error st .auto c s m0 m1 = .ok a ∧ moment1Error st' .auto c s m0 m1 = .ok b ∧ a.n = b.n ∧ a.m = b.m ∧
      ∀ y x, a.get y x = b.get y x) ∧
    (∃ a b, moment2Error st .auto c s m0 m1 m2 m1e = .ok a ∧ moment2Error st' .auto c s m0 m1 m2 m1e = .ok b ∧ a.n = b.n ∧ a.m = b.m ∧
      ∀ y x, a.get y x = b.get y x) := by
  obtain ⟨a1, b1, p1, q1, r1, s1, t1⟩ := C49_moment1_agree_partial .slice c s hok hn m0 m1
  obtain ⟨a2, b2, p2, q2, r2, s2, t2⟩ := C49_moment2_agree .slice c s hc hn m0 m1 m2 m1e
  have pick : ∀ st : How, st = .ray ∨ st = .slice ∨ st = .cube →
      ((moment1Error st .auto c s m0 m1 = .ok a1 ∧ moment2Error st .auto c s m0 m1 m2 m1e = .ok a2) ∨
       (moment1Error st .auto c s m0 m1 = .ok b1 ∧ moment2Error st .auto c s m0 m1 m2 m1e = .ok b2)) := by
    rintro st (rfl | rfl | rfl)
    · exact Or.inl ⟨p1, p2⟩
    · exact Or.inl ⟨p1, p2⟩
    · exact Or.inr ⟨q1, q2⟩
  rcases pick st hs with ⟨x1, x2⟩ | ⟨x1, x2⟩ <;> rcases pick st' hs' with ⟨y1, y2⟩ | ⟨y1, y2⟩
  · exact ⟨⟨_, _, x1, y1, rfl, rfl, fun _ _ => rfl⟩, ⟨_, _, x2, y2, rfl, rfl, fun _ _ => rfl⟩⟩
  · exact ⟨⟨_, _, x1, y1, r1, s1, t1⟩, ⟨_, _, x2, y2, r2, s2, t2⟩⟩
  · exact ⟨⟨_, _, x1, y1, r1.symm, s1.symm, fun y x => (t1 y x).symm⟩, ⟨_, _, x2, y2, r2.symm, s2.symm, fun y x => (t2 y x).symm⟩⟩
  · exact ⟨⟨_, _, x1, y1, rfl, rfl, fun _ _ => rfl⟩, ⟨_, _, x2, y2, rfl, rfl, fun _ _ => rfl⟩⟩

/-- But `linewidth_sigma_err(how='auto')` passes 'ray' on and fails when that is the strategy chosen. -/
theorem C49_linewidth_auto_ray (c : SCube) (s : Noise) (hc : checkNoise c s = .ok ()) (m0 m1 m2 : Arr2 (Option ℝ))
    (m1e : Option (Arr2 (Option ℝ))) : linewidthSigmaErr .ray .auto c s m0 m1 m2 m1e = .error .valueError := by
  unfold linewidthSigmaErr
  simp only [if_true]
  rw [(C49_unknown_how .ray .ray (Or.inr rfl) c s 0 hc m0 m1 m2 m1e).2.2]
  rfl

/-- Not vacuous: two channels at offsets 0 and 2, one of them included, noise 3, total 4. -/
example : let c : SCube := ⟨⟨2, 1, 1, fun k _ _ => some (if k = 0 then 3 else 1)⟩, fun k _ _ => k = 0, fun _ => 1, fun k _ _ => 2 * k, 10⟩
    NoiseOk c (.const (some 3)) ∧ err0 c (.const (some 3)) 0 0 = 3 ∧ err1 c (.const (some 3)) 4 11 0 0 = Real.sqrt (9 / 8) := by
  refine ⟨⟨3, rfl⟩, ?_, ?_⟩
  · have : (range 2).filter (fun k => (decide (k = 0)) = true) = {0} := by decide
    simp only [err0, voxelNoise, this, sum_singleton, Option.getD_some, mul_one]
    rw [Real.sqrt_sq (by norm_num)]
  · simp only [err1, voxelNoise, Option.getD_some, sum_range_succ, sum_range_zero]
    norm_num

/-- The line width error is the error of its square over twice the line width. -/
theorem C49_linewidth_value (strategy how : How) (hh : how = .slice ∨ how = .cube) (c : SCube) (s : Noise) (hs : NoiseOk c s)
    (hn : 0 < c.data.n) (hw : c.pixSize 0 ≠ 0) (m0 m1 m2 m1e : Arr2 (Option ℝ)) :
    ∃ a b, linewidthSigmaErr strategy how c s m0 m1 m2 (some m1e) = .ok a ∧
      moment2Error strategy how c s m0 m1 m2 (some m1e) = .ok b ∧
      (∀ y x M b' v e, M ≠ 0 → m0.get y x = some M → m1.get y x = some b' → m2.get y x = some v → 0 < v →
        m1e.get y x = some e → a.get y x = some (err2 c s (M / c.pixSize 0) b' v e y x / (2 * Real.sqrt v))) ∧
      (∀ y x v, m2.get y x = some v → v ≤ 0 → a.get y x = none) := by
  obtain ⟨b, hb, hv⟩ := C49_moment2_value strategy how hh c s hs hn hw m0 m1 m2 m1e
  have hne : how ≠ .auto := by rcases hh with rfl | rfl <;> decide
  refine ⟨⟨b.n, b.m, fun y x => divO (b.get y x)
      ((m2.get y x).bind (fun v => if v < 0 then none else some (2 * Real.sqrt v)))⟩, b, ?_, hb, ?_, ?_⟩
  · unfold linewidthSigmaErr
    simp only [if_neg hne, hb, bind, Except.bind, pure, Except.pure]
  · intro y x M b' v e hM e0 e1 e2 hvp e3
    simp only
    rw [hv y x M b' v e hM e0 e1 e2 e3, e2]
    have hs : (2 * Real.sqrt v) ≠ 0 := by positivity
    simp only [Option.bind_some, if_neg (not_lt.2 hvp.le), divO, bind, pure, if_neg hs]
  · intro y x v e2 hv0
    simp only
    rw [e2]
    rcases hv0.lt_or_eq with h | h
    · simp [h, divO]
    · subst h
      cases b.get y x <;> simp [divO]

/-- The error of the full width at half maximum is that of the dispersion times the ratio of the two widths of a Gaussian, for every noise
and method, with the same exceptions and NaNs. -/
theorem C49_fwhm (strategy how : How) (c : SCube) (s : Noise) (m0 m1 m2 : Arr2 (Option ℝ)) (m1e : Option (Arr2 (Option ℝ))) :
    ∃ F : ℝ, 0 < F ∧ Real.exp (-(F / 2) ^ 2 / 2) = 1 / 2 ∧
      (∀ e, linewidthSigmaErr strategy how c s m0 m1 m2 m1e = .error e → linewidthFwhmErr strategy how c s m0 m1 m2 m1e = .error e) ∧
      ∀ a, linewidthSigmaErr strategy how c s m0 m1 m2 m1e = .ok a → ∃ b, linewidthFwhmErr strategy how c s m0 m1 m2 m1e = .ok b ∧
        b.n = a.n ∧ b.m = a.m ∧ ∀ y x, (a.get y x = none → b.get y x = none) ∧ ∀ v, a.get y x = some v → b.get y x = some (F * v) := by
  have hl : 0 < Real.log 2 := Real.log_pos (by norm_num)
  refine ⟨2 * Real.sqrt (2 * Real.log 2), by positivity, ?_, ?_, ?_⟩
  · rw [mul_div_cancel_left₀ _ (by norm_num : (2 : ℝ) ≠ 0), Real.sq_sqrt (by positivity),
      show -(2 * Real.log 2) / 2 = -Real.log 2 by ring, Real.exp_neg, Real.exp_log (by norm_num)]
    norm_num
  · intro e he
    simp only [linewidthFwhmErr, he, bind, Except.bind]
  · intro a ha
    refine ⟨⟨a.n, a.m, fun y x => mulO (some (2 * Real.sqrt (2 * Real.log 2))) (a.get y x)⟩, ?_, rfl, rfl, fun y x => ⟨?_, ?_⟩⟩
    · simp only [linewidthFwhmErr, ha, bind, Except.bind, pure, Except.pure]
    · intro h
      simp only [h, mulO, bind, Option.bind]
    · intro v h
      simp only [h, mulO, bind, Option.bind, pure]

end TS
