import Verif.Model.DvKernels
import Verif.Lemmas.Psds
import Mathlib.Algebra.BigOperators.Group.Finset.Sigma
import Mathlib.Data.Multiset.Bind

/-! Rearrangements of the pixels of a map. -/

namespace TS
open Finset

/-- `σ` maps the pixels of an `n' × m'` map one-to-one onto those of an `n × m` map. -/
def PixelMap (n' m' n m : ℕ) (σ : ℕ × ℕ → ℕ × ℕ) : Prop :=
  Set.BijOn σ (range n' ×ˢ range m' : Finset (ℕ × ℕ)) (range n ×ˢ range m : Finset (ℕ × ℕ))

/-- The map `b` shows at every pixel what `a` shows at the image of the pixel. -/
def Rearranged {α : Type*} (σ : ℕ × ℕ → ℕ × ℕ) (b a : Arr2 α) : Prop :=
  ∀ i < b.n, ∀ j < b.m, b.get i j = a.get (σ (i, j)).1 (σ (i, j)).2

theorem PixelMap.lt {n' m' n m : ℕ} {σ : ℕ × ℕ → ℕ × ℕ} (h : PixelMap n' m' n m σ) {i j : ℕ} (hi : i < n') (hj : j < m') :
    (σ (i, j)).1 < n ∧ (σ (i, j)).2 < m := by
  have := h.mapsTo (show (i, j) ∈ (↑(range n' ×ˢ range m') : Set (ℕ × ℕ)) by simp [hi, hj])
  simpa using this

theorem PixelMap.sum {M : Type*} [AddCommMonoid M] {n' m' n m : ℕ} {σ : ℕ × ℕ → ℕ × ℕ} (h : PixelMap n' m' n m σ) (f : ℕ → ℕ → M) :
    ∑ i ∈ range n', ∑ j ∈ range m', f (σ (i, j)).1 (σ (i, j)).2 = ∑ i ∈ range n, ∑ j ∈ range m, f i j := by
  rw [← sum_product' (range n) (range m), ← sum_product' (range n') (range m') (fun i j => f (σ (i, j)).1 (σ (i, j)).2)]
  exact sum_nbij σ (fun a ha => h.mapsTo ha) h.injOn h.surjOn (fun a _ => rfl)

theorem PixelMap.card {n' m' n m : ℕ} {σ : ℕ × ℕ → ℕ × ℕ} (h : PixelMap n' m' n m σ) : n' * m' = n * m := by
  have := h.sum (fun _ _ => 1)
  simpa using this

theorem ravel_eq {α : Type*} (a : Arr2 α) : (a.ravel : Multiset α) = (range a.n ×ˢ range a.m).val.map fun p => a.get p.1 p.2 := by
  rw [Arr2.ravel, ← Multiset.coe_bind]
  simp only [← Multiset.map_coe]
  show _ = Multiset.map _ (Multiset.product (range a.n).val (range a.m).val)
  rw [Multiset.product, Multiset.map_bind]
  simp only [Multiset.map_map]
  rfl

theorem ravel_perm {α : Type*} {n' m' : ℕ} {σ : ℕ × ℕ → ℕ × ℕ} {a b : Arr2 α} (h : PixelMap n' m' a.n a.m σ) (hn : b.n = n') (hm : b.m = m')
    (hr : Rearranged σ b a) : b.ravel.Perm a.ravel := by
  subst hn hm
  rw [← Multiset.coe_eq_coe, ravel_eq, ravel_eq]
  have himg : (range a.n ×ˢ range a.m).val = (range b.n ×ˢ range b.m).val.map σ := by
    rw [← image_val_of_injOn h.injOn]
    congr 1
    apply coe_injective
    rw [coe_image]
    exact h.image_eq.symm
  rw [himg, Multiset.map_map]
  apply Multiset.map_congr rfl
  intro p hp
  have hp' : p ∈ range b.n ×ˢ range b.m := hp
  rw [mem_product, mem_range, mem_range] at hp'
  exact hr p.1 hp'.1 p.2 hp'.2

theorem npMax_perm {l l' : List ℝ} (h : l.Perm l') : npMax l = npMax l' := by
  cases hz : npMax l with
  | error e =>
    cases l with
    | nil => rw [← h.nil_eq]; exact hz.symm
    | cons x xs => cases hz
  | ok z =>
    obtain ⟨h1, h2⟩ := npMax_spec hz
    exact (npMax_eq (h.mem_iff.1 h1) fun y hy => h2 y (h.mem_iff.2 hy)).symm

theorem meanO_perm {l l' : List ℝ} (h : l.Perm l') : meanO l = meanO l' := by
  unfold meanO
  rw [h.sum_eq, h.length_eq]
  by_cases hl : l = []
  · subst hl
    rw [← h.nil_eq]
  · rw [if_neg hl, if_neg fun hl' => hl (by rw [hl'] at h; exact h.eq_nil)]

theorem varO_perm {l l' : List ℝ} (h : l.Perm l') : varO l = varO l' := by
  unfold varO
  rw [meanO_perm h]
  cases meanO l' with
  | none => rfl
  | some m => exact meanO_perm (h.map _)

theorem nansum_rearranged {n' m' : ℕ} {σ : ℕ × ℕ → ℕ × ℕ} {a b : Arr2 (Option ℝ)} (h : PixelMap n' m' a.n a.m σ) (hn : b.n = n') (hm : b.m = m')
    (hr : Rearranged σ b a) : b.nansum = a.nansum := by
  subst hn hm
  unfold Arr2.nansum
  rw [← h.sum]
  refine sum_congr rfl fun i hi => sum_congr rfl fun j hj => ?_
  rw [hr i (mem_range.1 hi) j (mem_range.1 hj)]

theorem nFinite_rearranged {n' m' : ℕ} {σ : ℕ × ℕ → ℕ × ℕ} {a b : Arr2 (Option ℝ)} (h : PixelMap n' m' a.n a.m σ) (hn : b.n = n')
    (hm : b.m = m') (hr : Rearranged σ b a) : b.nFinite = a.nFinite := by
  subst hn hm
  unfold Arr2.nFinite
  rw [← h.sum]
  refine sum_congr rfl fun i hi => sum_congr rfl fun j hj => ?_
  rw [hr i (mem_range.1 hi) j (mem_range.1 hj)]

/-- Coefficients that follow the rearrangement of the pixels. -/
def Follows (n' m' : ℕ) (σ : ℕ × ℕ → ℕ × ℕ) (coef' coef : ℕ → ℕ → ℕ → ℕ → ℝ) : Prop :=
  ∀ i < n', ∀ j < m', ∀ u < n', ∀ v < m', coef' i j u v = coef (σ (i, j)).1 (σ (i, j)).2 (σ (u, v)).1 (σ (u, v)).2

theorem applyK_rearranged {n' m' : ℕ} {σ : ℕ × ℕ → ℕ × ℕ} {a b : Arr2 ℝ} (h : PixelMap n' m' a.n a.m σ) (hn : b.n = n') (hm : b.m = m')
    (hr : Rearranged σ b a) {coef' coef : ℕ → ℕ → ℕ → ℕ → ℝ} (hc : Follows n' m' σ coef' coef) :
    Rearranged σ (applyK coef' b) (applyK coef a) := by
  subst hn hm
  intro i hi j hj
  show ∑ u ∈ range b.n, ∑ v ∈ range b.m, coef' i j u v * b.get u v = _
  rw [show (applyK coef a).get (σ (i, j)).1 (σ (i, j)).2
    = ∑ u ∈ range a.n, ∑ v ∈ range a.m, coef (σ (i, j)).1 (σ (i, j)).2 u v * a.get u v from rfl, ← h.sum]
  refine sum_congr rfl fun u hu => sum_congr rfl fun v hv => ?_
  rw [hc i hi j hj u (mem_range.1 hu) v (mem_range.1 hv), hr u (mem_range.1 hu) v (mem_range.1 hv)]

theorem dvFilter_rearranged {n' m' : ℕ} {σ : ℕ × ℕ → ℕ × ℕ} {pi pi' : Arr2 (Option ℝ)} {pw pw' : Arr2 ℝ} (h : PixelMap n' m' pi.n pi.m σ)
    (hwn : pw.n = pi.n) (hwm : pw.m = pi.m)
    (hn : pi'.n = n') (hm : pi'.m = m') (hn' : pw'.n = n') (hm' : pw'.m = m') (hr : Rearranged σ pi' pi) (hw : Rearranged σ pw' pw)
    {core core' ann ann' : ℕ → ℕ → ℕ → ℕ → ℝ} (hc : Follows n' m' σ core' core) (ha : Follows n' m' σ ann' ann) (cut : ℝ) (preserve : Bool) :
    Rearranged σ (dvFilter core' ann' cut preserve pi' pw').1 (dvFilter core ann cut preserve pi pw).1 ∧
    Rearranged σ (dvFilter core' ann' cut preserve pi' pw').2 (dvFilter core ann cut preserve pi pw).2 := by
  have hr0 : Rearranged σ (pi'.map fun v => v.getD 0) (pi.map fun v => v.getD 0) := by
    intro i hi j hj
    show (pi'.get i j).getD 0 = _
    rw [hr i hi j hj]
    rfl
  have c1 := applyK_rearranged (a := pi.map fun v => v.getD 0) (b := pi'.map fun v => v.getD 0) h hn hm hr0 hc
  have c2 := applyK_rearranged (a := pi.map fun v => v.getD 0) (b := pi'.map fun v => v.getD 0) h hn hm hr0 ha
  have hp : PixelMap n' m' pw.n pw.m σ := by rw [hwn, hwm]; exact h
  have c3 := applyK_rearranged hp hn' hm' hw hc
  have c4 := applyK_rearranged hp hn' hm' hw ha
  constructor
  · intro i hi j hj
    have hi' : i < pi'.n := hi
    have hj' : j < pi'.m := hj
    show (if preserve ∧ (pi'.get i j).isNone then none else _) = (if preserve ∧ (pi.get _ _).isNone then none else _)
    rw [hr i hi' j hj', c1 i hi' j hj', c2 i hi' j hj', c3 i (by show i < pw'.n; omega) j (by show j < pw'.m; omega),
      c4 i (by show i < pw'.n; omega) j (by show j < pw'.m; omega)]
  · intro i hi j hj
    have hi' : i < pi'.n := hi
    have hj' : j < pi'.m := hj
    show mulO _ _ = mulO _ _
    rw [c3 i (by show i < pw'.n; omega) j (by show j < pw'.m; omega), c4 i (by show i < pw'.n; omega) j (by show j < pw'.m; omega)]

theorem delvar_rearranged {n' m' : ℕ} {σ : ℕ × ℕ → ℕ × ℕ} {arr arr' wt wt' : Arr2 (Option ℝ)} (h : PixelMap n' m' arr.n arr.m σ)
    (hwn : wt.n = arr.n) (hwm : wt.m = arr.m) (hn : arr'.n = n') (hm : arr'.m = m') (hn' : wt'.n = n') (hm' : wt'.m = m')
    (hr : Rearranged σ arr' arr) (hw : Rearranged σ wt' wt) (lag : ℝ) : delvar arr' wt' lag = delvar arr wt lag := by
  have hp : PixelMap n' m' wt.n wt.m σ := by rw [hwn, hwm]; exact h
  have e1 := nansum_rearranged h hn hm hr
  have e2 := nFinite_rearranged h hn hm hr
  have e3 := nansum_rearranged hp hn' hm' hw
  have hcent : ∀ c : Option ℝ, Rearranged σ (⟨arr'.n, arr'.m, fun i j => subO (arr'.get i j) c⟩ : Arr2 (Option ℝ))
      ⟨arr.n, arr.m, fun i j => subO (arr.get i j) c⟩ := by
    intro c i hi j hj
    show subO (arr'.get i j) c = _
    rw [hr i hi j hj]
  have e4 : ∀ c : Option ℝ, (⟨arr'.n, arr'.m, fun i j => subO (arr'.get i j) c⟩ : Arr2 (Option ℝ)).nFinite
      = (⟨arr.n, arr.m, fun i j => subO (arr.get i j) c⟩ : Arr2 (Option ℝ)).nFinite := fun c => nFinite_rearranged h hn hm (hcent c)
  have e5 : ∀ (c : Option ℝ) (p : ℕ), (⟨arr'.n, arr'.m, fun i j => mulO ((subO (arr'.get i j) c).map (· ^ p)) (wt'.get i j)⟩ :
      Arr2 (Option ℝ)).nansum = (⟨arr.n, arr.m, fun i j => mulO ((subO (arr.get i j) c).map (· ^ p)) (wt.get i j)⟩ : Arr2 (Option ℝ)).nansum := by
    intro c p
    refine nansum_rearranged h hn hm ?_
    intro i hi j hj
    have hi' : i < arr'.n := hi
    have hj' : j < arr'.m := hj
    show mulO ((subO (arr'.get i j) c).map (· ^ p)) (wt'.get i j) = _
    rw [hr i hi j hj, hw i (by omega) j (by omega)]
  unfold delvar
  simp only [e1, e2, e3, e4, e5]

end TS
