import Verif.Props.C33

/-! C74: eigenimages.  The eigenimage of component `k` is the cube projected on eigenvector `k`; images
of different components are orthogonal, the sum of squares of image `k` is its eigenvalue times the
number of degrees of freedom, and all images together reproduce the cube. -/

namespace TS
open Finset

namespace Spec

/-- Channel `u` of `N` pixels, less its mean if asked. -/
noncomputable def centre (meanSub : Bool) (N : ℕ) (u : ℕ → ℝ) (k : ℕ) : ℝ :=
  if meanSub then u k - chanMean N u else u k

/-- Projection of the channels on a vector. -/
noncomputable def projection (meanSub : Bool) (n N : ℕ) (x : ℕ → ℕ → ℝ) (v : ℕ → ℝ) (k : ℕ) : ℝ :=
  ∑ a ∈ range n, centre meanSub N (x a) k * v a

/-- Degrees of freedom of the covariance. -/
noncomputable def dof (meanSub : Bool) (N : ℕ) : ℝ := if meanSub then (N : ℝ) - 1 else N

end Spec

/-- Sum over a map, pixel by pixel, is the sum over the flattened map. -/
theorem sum_flatten (m p : ℕ) (f : ℕ → ℝ) :
    ∑ r ∈ range m, ∑ c ∈ range p, f (r * p + c) = ∑ k ∈ range (m * p), f k := by
  induction m with
  | zero => simp
  | succ m ih =>
    rw [sum_range_succ, ih, Nat.succ_mul, sum_range_add]

private theorem centred_full {cube : Arr3 (Option ℝ)} {x : ℕ → ℕ → ℝ} (h : Spec.FullCube cube x)
    (meanSub : Bool) {a r c : ℕ} (ha : a < cube.n) (hr : r < cube.m) (hc : c < cube.p) (v : ℝ) :
    (mulO (if meanSub then subO (cube.get a r c)
        (divO (some (vecNansum (cube.m * cube.p) (chanVec cube a)))
          (some (vecCount (cube.m * cube.p) (chanVec cube a))))
      else cube.get a r c) (some v)).getD 0 =
      Spec.centre meanSub (cube.m * cube.p) (x a) (r * cube.p + c) * v := by
  have hv : ∀ k < cube.m * cube.p, chanVec cube a k = some (x a k) := by
    intro k hk
    unfold chanVec
    rw [h.2 a ha (k / cube.p) (Nat.div_lt_of_lt_mul (by rwa [Nat.mul_comm])) (k % cube.p) (Nat.mod_lt _ h.1),
      Nat.div_add_mod']
  have hs : vecNansum (cube.m * cube.p) (chanVec cube a) = ∑ k ∈ range (cube.m * cube.p), x a k := by
    unfold vecNansum
    exact sum_congr rfl (fun k hk => by rw [hv k (mem_range.1 hk)]; rfl)
  have hn : vecCount (cube.m * cube.p) (chanVec cube a) = cube.m * cube.p := by
    unfold vecCount
    rw [sum_congr rfl (g := fun _ => 1) (fun k hk => by rw [hv k (mem_range.1 hk)]; rfl)]
    simp
  have hN : ((cube.m * cube.p : ℕ) : ℝ) ≠ 0 := by
    have h1 : 0 < cube.m := by omega
    have := Nat.mul_pos h1 h.1
    exact_mod_cast this.ne'
  rw [hs, hn, h.2 a ha r hr c hc]
  unfold Spec.centre Spec.chanMean
  cases meanSub
  · simp [mulO]
  · generalize cube.m * cube.p = N at hN
    simp [divO, subO, mulO, hN]

/-- **C74 (value).** Without missing voxels, pixel `(r, c)` of an eigenimage is the projection of the
(mean-subtracted, if asked) spectrum of that pixel on the eigenvector. -/
theorem C74_value (meanSub : Bool) (cube : Arr3 (Option ℝ)) (x : ℕ → ℕ → ℝ) (h : Spec.FullCube cube x)
    (v : ℕ → ℝ) (r c : ℕ) (hr : r < cube.m) (hc : c < cube.p) :
    (eigImage meanSub cube v).get r c =
      Spec.projection meanSub cube.n (cube.m * cube.p) x v (r * cube.p + c) := by
  unfold eigImage Spec.projection
  exact sum_congr rfl (fun a ha => centred_full h meanSub (mem_range.1 ha) hr hc (v a))

private theorem scatter (meanSub : Bool) (N : ℕ) (u w : ℕ → ℝ) :
    ∑ k ∈ range N, Spec.centre meanSub N u k * Spec.centre meanSub N w k =
      Spec.dof meanSub N * Spec.covariance meanSub N u w := by
  unfold Spec.centre Spec.dof Spec.covariance
  cases meanSub
  · simp only [Bool.false_eq_true, if_false]
    by_cases hN : (N : ℝ) = 0
    · have : N = 0 := by exact_mod_cast hN
      subst this; simp
    · field_simp
  · simp only [if_true]
    by_cases hN : (N : ℝ) - 1 = 0
    · have : N = 1 := by exact_mod_cast (sub_eq_zero.1 hN)
      subst this
      simp [Spec.chanMean]
    · field_simp

private theorem project_products (meanSub : Bool) (n N : ℕ) (x : ℕ → ℕ → ℝ) (u w : ℕ → ℝ) :
    ∑ k ∈ range N, Spec.projection meanSub n N x u k * Spec.projection meanSub n N x w k =
      Spec.dof meanSub N *
        ∑ a ∈ range n, u a * ∑ b ∈ range n, Spec.covariance meanSub N (x a) (x b) * w b := by
  unfold Spec.projection
  simp only [sum_mul_sum]
  rw [sum_comm, mul_sum]
  refine sum_congr rfl (fun a _ => ?_)
  rw [sum_comm, mul_sum, mul_sum]
  refine sum_congr rfl (fun b _ => ?_)
  have := scatter meanSub N (x a) (x b)
  have e : ∀ k, Spec.centre meanSub N (x a) k * u a * (Spec.centre meanSub N (x b) k * w b) =
      u a * w b * (Spec.centre meanSub N (x a) k * Spec.centre meanSub N (x b) k) := by
    intro k; ring
  simp only [e]
  rw [← mul_sum, this]; ring

private theorem ord_inj {n : ℕ} {lam : ℕ → ℝ} {ord : ℕ → ℕ} (ho : Spec.IsOrder n lam ord) {k l : ℕ}
    (hk : k < n) (hl : l < n) (h : ord k = ord l) : k = l := by
  have hnd : ((List.range n).map ord).Nodup := ho.1.nodup_iff.2 List.nodup_range
  have := List.inj_on_of_nodup_map hnd (List.mem_range.2 hk) (List.mem_range.2 hl) h
  exact this

private theorem ord_lt {n : ℕ} {lam : ℕ → ℝ} {ord : ℕ → ℕ} (ho : Spec.IsOrder n lam ord) {k : ℕ}
    (hk : k < n) : ord k < n := by
  have : ord k ∈ (List.range n).map ord := List.mem_map.2 ⟨k, List.mem_range.2 hk, rfl⟩
  exact List.mem_range.1 (ho.1.mem_iff.1 this)

private theorem eigvecs_eq {n : ℕ} {lam : ℕ → ℝ} {V : ℕ → ℕ → ℝ} {ord : ℕ → ℕ} {ms : Bool} {arg : NEigsArg}
    {me : Option ℝ} {cm : CutMethod} {st : PcaState}
    (h : computePca n lam V ord ms arg me cm = .ok st) :
    (∀ i k, st.eigvecs i k = V i (ord k)) ∧ st.meanSub = ms := by
  unfold computePca at h
  simp only [bind, Except.bind, pure, Except.pure] at h
  split at h
  · cases h
  · cases h; exact ⟨fun _ _ => rfl, rfl⟩

/-- **C74 (orthogonality and power).** For a cube without missing voxels decomposed by `compute_pca`:
the product of two different eigenimages sums to 0, and the square of eigenimage `k` sums to
`eigvals[k]` times the degrees of freedom. -/
theorem C74_orthogonal (eps : ℝ) (ms : Bool) (cube : Arr3 (Option ℝ)) (x : ℕ → ℕ → ℝ)
    (hx : Spec.FullCube cube x) (lam : ℕ → ℝ) (V : ℕ → ℕ → ℝ) (ord : ℕ → ℕ)
    (hE : Spec.IsEigh cube.n (varCovCube eps ms cube).get lam V) (ho : Spec.IsOrder cube.n lam ord)
    (arg : NEigsArg) (me : Option ℝ) (cm : CutMethod) (st : PcaState)
    (h : computePca cube.n lam V ord ms arg me cm = .ok st) (k l : ℕ) (hk : k < cube.n)
    (hl : l < cube.n) :
    ∑ r ∈ range cube.m, ∑ c ∈ range cube.p,
        (eigImage st.meanSub cube (fun a => st.eigvecs a k)).get r c *
        (eigImage st.meanSub cube (fun a => st.eigvecs a l)).get r c =
      if k = l then Spec.dof ms (cube.m * cube.p) * st.eigvals.getD k 0 else 0 := by
  obtain ⟨hv, hms⟩ := eigvecs_eq h
  set N := cube.m * cube.p with hNdef
  set P := fun q => Spec.projection ms cube.n N x (fun a => st.eigvecs a q) with hP
  have e1 : ∑ r ∈ range cube.m, ∑ c ∈ range cube.p,
        (eigImage st.meanSub cube (fun a => st.eigvecs a k)).get r c *
        (eigImage st.meanSub cube (fun a => st.eigvecs a l)).get r c =
      ∑ t ∈ range N, P k t * P l t := by
    rw [← sum_flatten cube.m cube.p (fun t => P k t * P l t)]
    refine sum_congr rfl (fun r hr => sum_congr rfl (fun c hc => ?_))
    rw [hms, C74_value ms cube x hx _ r c (mem_range.1 hr) (mem_range.1 hc),
      C74_value ms cube x hx _ r c (mem_range.1 hr) (mem_range.1 hc)]
  rw [e1, project_products]
  have e2 : ∀ a ∈ range cube.n, st.eigvecs a k *
      ∑ b ∈ range cube.n, Spec.covariance ms N (x a) (x b) * st.eigvecs b l =
      st.eigvals.getD l 0 * (V a (ord k) * V a (ord l)) := by
    intro a ha
    have := C33_pairs cube.n (varCovCube eps ms cube).get lam V ord hE ho ms arg me cm st h a l
      (mem_range.1 ha) hl
    have hs : ∑ b ∈ range cube.n, Spec.covariance ms N (x a) (x b) * st.eigvecs b l =
        ∑ b ∈ range cube.n, (varCovCube eps ms cube).get a b * st.eigvecs b l :=
      sum_congr rfl (fun b hb => by
        rw [C32_values eps ms cube x hx a b (mem_range.1 ha) (mem_range.1 hb)])
    rw [hs, this, hv, hv]
    ring
  rw [sum_congr rfl e2, ← mul_sum, hE.1 _ (ord_lt ho hk) _ (ord_lt ho hl)]
  by_cases hkl : k = l
  · subst hkl; simp
  · rw [if_neg (fun h => hkl (ord_inj ho hk hl h)), if_neg hkl]; simp

/-- **C74 (completeness).** The eigenimages weighted by their eigenvectors add up to the
(mean-subtracted, if asked) cube. -/
theorem C74_complete (ms : Bool) (cube : Arr3 (Option ℝ)) (x : ℕ → ℕ → ℝ) (hx : Spec.FullCube cube x)
    (C : ℕ → ℕ → ℝ) (lam : ℕ → ℝ) (V : ℕ → ℕ → ℝ) (hE : Spec.IsEigh cube.n C lam V)
    (a r c : ℕ) (ha : a < cube.n) (hr : r < cube.m) (hc : c < cube.p) :
    ∑ k ∈ range cube.n, (eigImage ms cube (fun b => V b k)).get r c * V a k =
      Spec.centre ms (cube.m * cube.p) (x a) (r * cube.p + c) := by
  let U : Matrix (Fin cube.n) (Fin cube.n) ℝ := Matrix.of (fun i k => V i k)
  have h1 : U.transpose * U = 1 := by
    ext k l
    rw [Matrix.mul_apply, Matrix.one_apply]
    have := hE.1 k k.2 l l.2
    rw [Finset.sum_range] at this
    simp only [Matrix.transpose_apply, U, Matrix.of_apply]
    rw [this]
    simp [Fin.ext_iff]
  have h3 : U * U.transpose = 1 := by rwa [mul_eq_one_comm]
  have hrow : ∀ b < cube.n, ∑ k ∈ range cube.n, V b k * V a k = if b = a then 1 else 0 := by
    intro b hb
    have := congrFun (congrFun h3 ⟨b, hb⟩) ⟨a, ha⟩
    rw [Matrix.mul_apply, Matrix.one_apply] at this
    simp only [Matrix.transpose_apply, U, Matrix.of_apply, Fin.mk.injEq] at this
    rw [Finset.sum_range, this]
  have e : ∀ k ∈ range cube.n, (eigImage ms cube (fun b => V b k)).get r c * V a k =
      ∑ b ∈ range cube.n, Spec.centre ms (cube.m * cube.p) (x b) (r * cube.p + c) * (V b k * V a k) := by
    intro k _
    rw [C74_value ms cube x hx _ r c hr hc, Spec.projection, sum_mul]
    exact sum_congr rfl (fun b _ => by ring)
  rw [sum_congr rfl e, sum_comm]
  have : ∀ b ∈ range cube.n, ∑ k ∈ range cube.n,
      Spec.centre ms (cube.m * cube.p) (x b) (r * cube.p + c) * (V b k * V a k) =
      if b = a then Spec.centre ms (cube.m * cube.p) (x b) (r * cube.p + c) else 0 := by
    intro b hb
    rw [← mul_sum, hrow b (mem_range.1 hb)]
    split <;> simp
  rw [sum_congr rfl this, sum_ite_eq' (range cube.n) a]
  rw [if_pos (mem_range.2 ha)]

private theorem stack_eq (imgs : List (Arr2 ℝ)) (h : 2 ≤ imgs.length) :
    ∃ s : Arr3 ℝ, stackImages imgs = .ok (.stack s) ∧ s.n = imgs.length ∧
      (∀ (i : Arr2 ℝ), imgs[0]? = some i → s.m = i.m ∧ s.p = i.n) ∧
      ∀ (q : ℕ) (img : Arr2 ℝ), imgs[q]? = some img → ∀ r c, s.get q c r = img.get r c := by
  match imgs, h with
  | i :: j :: rest, _ =>
    refine ⟨_, rfl, rfl, ?_, ?_⟩
    · intro i' hi'
      simp only [List.getElem?_cons_zero, Option.some.injEq] at hi'
      subst hi'
      exact ⟨rfl, rfl⟩
    · intro q img hq r c
      simp only [hq]

/-- **C74 (returned array).** Asking for one image returns that image. Missing: several images at once (`C74_transposed_violated`,
`C74_shape_violated`). -/
theorem C74_single_partial (eps : ℝ) (cube : Arr3 (Option ℝ)) (st : PcaState) (he : st.eigvals ≠ []) :
    ∃ img, eigImages eps cube st 1 = .ok (.single img) ∧ img.n = cube.m ∧ img.m = cube.p ∧
      ∀ r c, img.get r c = (eigImage st.meanSub cube (fun a => st.eigvecs a 0)).get r c := by
  have hlen : ¬ st.eigvals.length < 1 := by
    have := List.length_pos_iff.2 he; omega
  refine ⟨eigImage st.meanSub cube (fun a => st.eigvecs a 0), ?_, rfl, rfl, fun _ _ => rfl⟩
  unfold eigImages eigIndices
  simp [hlen, bind, Except.bind, stackImages, List.range_succ]

/-- **C74 (returned array, violation).** Asking for two or more images returns a stack whose images
are transposed: its shape is `(k, columns, rows)` and entry `[q, c, r]` is pixel `(r, c)`. -/
theorem C74_transposed_violated (eps : ℝ) (cube : Arr3 (Option ℝ)) (st : PcaState) (k : ℕ) (h2 : 2 ≤ k)
    (hk : k ≤ st.eigvals.length) :
    ∃ s : Arr3 ℝ, eigImages eps cube st k = .ok (.stack s) ∧ s.n = k ∧ s.m = cube.p ∧ s.p = cube.m ∧
      ∀ q < k, ∀ r c, s.get q c r = (eigImage st.meanSub cube (fun a => st.eigvecs a q)).get r c := by
  obtain ⟨s, h1, h3, h4, h5⟩ := stack_eq
    ((List.range k).map (fun q => eigImage st.meanSub cube (fun a => st.eigvecs a q))) (by simpa using h2)
  have hg : ∀ q < k, ((List.range k).map (fun q => eigImage st.meanSub cube (fun a => st.eigvecs a q)))[q]? =
      some (eigImage st.meanSub cube (fun a => st.eigvecs a q)) := by
    intro q hq
    simp [hq]
  have hs := h4 _ (hg 0 (by omega))
  refine ⟨s, ?_, by simpa using h3, hs.1, hs.2, fun q hq r c => h5 q _ (hg q hq) r c⟩
  unfold eigImages eigIndices
  rw [if_pos (by exact_mod_cast (by omega : 0 < k)), if_neg (by simpa using hk)]
  simp only [Int.toNat_natCast, bind, Except.bind]
  exact h1

/-- Consequence: for a map that is not square the stack does not even have the shape of the map. -/
theorem C74_shape_violated (eps : ℝ) (cube : Arr3 (Option ℝ)) (hne : cube.m ≠ cube.p) (st : PcaState)
    (k : ℕ) (h2 : 2 ≤ k) (hk : k ≤ st.eigvals.length) (s : Arr3 ℝ)
    (h : eigImages eps cube st k = .ok (.stack s)) : s.m ≠ cube.m := by
  obtain ⟨s', h1, -, h3, -⟩ := C74_transposed_violated eps cube st k h2 hk
  rw [h1] at h
  cases h
  rw [h3]
  exact fun h => hne h.symm

/-- Non-vacuity: a full 2-channel cube of 1×2 pixels whose second moments are diagonal. -/
example : ∃ x : ℕ → ℕ → ℝ, Spec.FullCube ⟨2, 1, 2, fun a r c => some (if a = c then 1 else 0)⟩ x := by
  refine ⟨fun a k => if a = k then 1 else 0, by decide, ?_⟩
  intro i hi r hr c hc
  interval_cases r
  simp

end TS
