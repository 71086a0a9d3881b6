import Verif.Lemmas.PixelMap
import Verif.Props.C23
import Mathlib.Analysis.SpecialFunctions.Sqrt

/-! C86: delta-variance and wavelet values do not depend on the position or orientation of the map. -/

namespace TS
open Finset

namespace Spec

/-- The map upside down. -/
def mirror0 {α : Type*} (a : Arr2 α) : Arr2 α := ⟨a.n, a.m, fun i j => a.get (a.n - 1 - i) j⟩

/-- The map with left and right exchanged. -/
def mirror1 {α : Type*} (a : Arr2 α) : Arr2 α := ⟨a.n, a.m, fun i j => a.get i (a.m - 1 - j)⟩

/-- Rows and columns exchanged. -/
def transposed {α : Type*} (a : Arr2 α) : Arr2 α := ⟨a.m, a.n, fun i j => a.get j i⟩

/-- A kernel that looks the same in a mirror and on its side. -/
structure Isotropic (k : Kern) : Prop where
  even0 : ∀ a b, k.val (-a) b = k.val a b
  even1 : ∀ a b, k.val a (-b) = k.val a b
  swap : ∀ a b, k.val a b = k.val b a

end Spec

/-! ### the kernels -/

/-- The three kernels are isotropic, also after normalisation. -/
theorem C86_isotropic (lag ratio an : ℝ) : Spec.Isotropic (coreKernel lag).normalised ∧ Spec.Isotropic (annulusKernel lag ratio).normalised ∧
    Spec.Isotropic (rickerKern an) := by
  have hn : ∀ k, Spec.Isotropic k → Spec.Isotropic k.normalised := by
    intro k h
    refine ⟨fun a b => ?_, fun a b => ?_, fun a b => ?_⟩
    · simp only [Kern.normalised, h.even0]
    · simp only [Kern.normalised, h.even1]
    · simp only [Kern.normalised, h.swap a b]
  refine ⟨hn _ ⟨?_, ?_, ?_⟩, hn _ ⟨?_, ?_, ?_⟩, ?_, ?_, ?_⟩ <;> intro a b <;>
    simp only [coreKernel, annulusKernel, annulusEval, rickerKern, rickerKernel, Int.cast_neg, neg_sq, add_comm ((a : ℝ) ^ 2)]

/-- The normalised kernels are weights: positive values with sum one. -/
theorem C86_weights {lag : ℝ} (hl : 0 < lag) {ratio : ℝ} (hr : 1 < ratio) :
    (∀ a b, 0 < (coreKernel lag).normalised.val a b) ∧ (coreKernel lag).normalised.sum = 1 ∧
    (0 < (annulusKernel lag ratio).r → (∀ a b, 0 ≤ (annulusKernel lag ratio).normalised.val a b) ∧ (annulusKernel lag ratio).normalised.sum = 1) := by
  have hs : 0 < lag / (2 * Real.sqrt 2) := by positivity
  set s := lag / (2 * Real.sqrt 2) with hsdef
  have hsum : ∀ k : Kern, k.sum ≠ 0 → k.normalised.sum = 1 := by
    intro k hk
    unfold Kern.normalised
    simp only [Kern.sum] at hk ⊢
    simp only [← sum_div]
    exact div_self hk
  have hcore : ∀ a b, 0 < (coreKernel lag).val a b := by
    intro a b
    simp only [coreKernel, ← hsdef]
    positivity
  have hne : (Icc (-((coreKernel lag).r : ℤ)) (coreKernel lag).r).Nonempty := ⟨0, by simp⟩
  have hcs : 0 < (coreKernel lag).sum := sum_pos (fun a _ => sum_pos (fun b _ => hcore a b) hne) hne
  refine ⟨fun a b => div_pos (hcore a b) hcs, hsum _ hcs.ne', fun hrad => ?_⟩
  have hamp : 0 < annulusAmp s ratio := by
    unfold annulusAmp
    have : 0 < ratio ^ 2 - 1 := by nlinarith
    positivity
  have hann : ∀ a b : ℤ, 0 ≤ (annulusKernel lag ratio).val a b := by
    intro a b
    simp only [annulusKernel, ← hsdef, annulusEval]
    refine mul_nonneg hamp.le (sub_nonneg.2 (Real.exp_le_exp.2 ?_))
    rw [div_le_div_iff₀ (by positivity) (by positivity)]
    have h1 : (0 : ℝ) ≤ (a : ℝ) ^ 2 + (b : ℝ) ^ 2 := by positivity
    have h2 : s ^ 2 ≤ (ratio * s) ^ 2 := by
      rw [mul_pow]
      nlinarith [mul_nonneg (by nlinarith : (0 : ℝ) ≤ ratio ^ 2 - 1) (sq_nonneg s)]
    nlinarith [mul_le_mul_of_nonneg_left h2 h1]
  have hann1 : 0 < (annulusKernel lag ratio).val 1 0 := by
    simp only [annulusKernel, ← hsdef, annulusEval]
    refine mul_pos hamp (sub_pos.2 (Real.exp_lt_exp.2 ?_))
    rw [div_lt_div_iff₀ (by positivity) (by positivity)]
    have h2 : s ^ 2 < (ratio * s) ^ 2 := by
      rw [mul_pow]
      nlinarith [mul_pos (by nlinarith : (0 : ℝ) < ratio ^ 2 - 1) (pow_pos hs 2)]
    norm_num
    linarith
  have has : 0 < (annulusKernel lag ratio).sum := by
    have hm1 : (1 : ℤ) ∈ Icc (-((annulusKernel lag ratio).r : ℤ)) (annulusKernel lag ratio).r := by
      rw [mem_Icc]; omega
    have hm0 : (0 : ℤ) ∈ Icc (-((annulusKernel lag ratio).r : ℤ)) (annulusKernel lag ratio).r := by
      rw [mem_Icc]; omega
    refine lt_of_lt_of_le hann1 (le_trans ?_ (single_le_sum (fun a _ => sum_nonneg fun b _ => hann a b) hm1))
    exact single_le_sum (f := fun b => (annulusKernel lag ratio).val 1 b) (fun b _ => hann 1 b) hm0
  exact ⟨fun a b => div_nonneg (hann a b) has.le, hsum _ has.ne'⟩

/-! ### rearrangements -/

private theorem sum_Icc_neg (r : ℕ) (f : ℤ → ℝ) : ∑ a ∈ Icc (-(r : ℤ)) r, f (-a) = ∑ a ∈ Icc (-(r : ℤ)) r, f a := by
  refine sum_nbij' (fun a => -a) (fun a => -a) ?_ ?_ ?_ ?_ ?_ <;> intro a ha <;> simp only [mem_Icc, neg_neg] at ha ⊢ <;> omega

private theorem mirror_map (n m : ℕ) : PixelMap n m n m fun p => (n - 1 - p.1, p.2) := by
  refine ⟨?_, ?_, ?_⟩
  · intro p hp
    simp only [coe_product, coe_range, Set.mem_prod, Set.mem_Iio] at hp ⊢
    omega
  · intro p hp q hq h
    simp only [coe_product, coe_range, Set.mem_prod, Set.mem_Iio, Prod.mk.injEq] at hp hq h
    ext <;> omega
  · intro p hp
    simp only [coe_product, coe_range, Set.mem_prod, Set.mem_Iio] at hp
    refine ⟨(n - 1 - p.1, p.2), by simp only [coe_product, coe_range, Set.mem_prod, Set.mem_Iio]; omega, ?_⟩
    ext <;> simp only <;> omega

private theorem swap_map (n m : ℕ) : PixelMap m n n m fun p => (p.2, p.1) := by
  refine ⟨?_, ?_, ?_⟩
  · intro p hp
    simp only [coe_product, coe_range, Set.mem_prod, Set.mem_Iio] at hp ⊢
    omega
  · intro p hp q hq h
    simp only [Prod.mk.injEq] at h
    ext <;> omega
  · intro p hp
    simp only [coe_product, coe_range, Set.mem_prod, Set.mem_Iio] at hp
    exact ⟨(p.2, p.1), by simp only [coe_product, coe_range, Set.mem_prod, Set.mem_Iio]; omega, rfl⟩

private theorem rollIx_inj {n : ℕ} {s : ℤ} {i j : ℕ} (hi : i < n) (hj : j < n) (h : rollIx n s i = rollIx n s j) : i = j := by
  have hn : 0 < n := by omega
  have h1 := rollIx_cast hn s i
  have h2 := rollIx_cast hn s j
  rw [h, h2] at h1
  have h3 : (n : ℤ) ∣ ((j : ℤ) - s) - ((i : ℤ) - s) := Int.ModEq.dvd h1.symm
  have h4 : (n : ℤ) ∣ (j : ℤ) - i := by simpa using h3
  have := Int.eq_zero_of_abs_lt_dvd h4 (by rw [abs_lt]; omega)
  omega

private theorem roll_map (n m : ℕ) (s : ℤ) : PixelMap n m n m fun p => (rollIx n s p.1, p.2) := by
  have hmaps : Set.MapsTo (fun p : ℕ × ℕ => (rollIx n s p.1, p.2)) (range n ×ˢ range m : Finset (ℕ × ℕ))
      (range n ×ˢ range m : Finset (ℕ × ℕ)) := by
    intro p hp
    simp only [coe_product, coe_range, Set.mem_prod, Set.mem_Iio] at hp ⊢
    exact ⟨rollIx_lt (by omega) s _, hp.2⟩
  have hinj : Set.InjOn (fun p : ℕ × ℕ => (rollIx n s p.1, p.2)) (range n ×ˢ range m : Finset (ℕ × ℕ)) := by
    intro p hp q hq h
    simp only [coe_product, coe_range, Set.mem_prod, Set.mem_Iio, Prod.mk.injEq] at hp hq h
    exact Prod.ext (rollIx_inj hp.1 hq.1 h.1) h.2
  exact ⟨hmaps, hinj, surjOn_of_injOn_of_card_le _ hmaps hinj le_rfl⟩

/-- The three elementary rearrangements: upside down, on its side, moved along the first axis. -/
inductive DvMove where
  | mirror
  | swap
  | roll (s : ℤ)

def DvMove.σ (t : DvMove) (n : ℕ) : ℕ × ℕ → ℕ × ℕ :=
  match t with
  | .mirror => fun p => (n - 1 - p.1, p.2)
  | .swap => fun p => (p.2, p.1)
  | .roll s => fun p => (rollIx n s p.1, p.2)

def DvMove.on {α : Type} (t : DvMove) (a : Arr2 α) : Arr2 α :=
  match t with
  | .mirror => Spec.mirror0 a
  | .swap => Spec.transposed a
  | .roll s => a.roll0 s

theorem dv_move_map {α : Type} (t : DvMove) (a : Arr2 α) : PixelMap (t.on a).n (t.on a).m a.n a.m (t.σ a.n) := by
  cases t with
  | mirror => exact mirror_map _ _
  | swap => exact swap_map _ _
  | roll s => exact roll_map _ _ s

theorem dv_move_rearranged {α : Type} (t : DvMove) (a : Arr2 α) : Rearranged (t.σ a.n) (t.on a) a := by
  cases t <;> intro i _ j _ <;> rfl

/-- When a move is a symmetry of the convolution with a kernel. -/
def DvMove.fits (t : DvMove) (b : DvBoundary) (k : Kern) (n : ℕ) : Prop :=
  match t with
  | .roll _ => b = .wrap ∧ 2 * k.r + 1 ≤ n
  | _ => True

theorem dv_follows_coef (t : DvMove) (b : DvBoundary) {k : Kern} (hk : Spec.Isotropic k) {α : Type} (a : Arr2 α) (hf : t.fits b k a.n) :
    Follows (t.on a).n (t.on a).m (t.σ a.n) (k.coef b (t.on a).n (t.on a).m) (k.coef b a.n a.m) := by
  intro i hi j hj u hu v hv
  cases t with
  | mirror =>
    have hi' : i < a.n := hi
    have hu' : u < a.n := hu
    have key : ∀ P Q : ℤ → Prop, ∀ [DecidablePred P] [DecidablePred Q], ∀ R : ℤ → Prop, ∀ [DecidablePred R], (∀ c, P c ↔ Q (-c)) →
        ∑ c ∈ Icc (-(k.r : ℤ)) k.r, ∑ d ∈ Icc (-(k.r : ℤ)) k.r, (if P c ∧ R d then k.val c d else 0)
        = ∑ c ∈ Icc (-(k.r : ℤ)) k.r, ∑ d ∈ Icc (-(k.r : ℤ)) k.r, (if Q c ∧ R d then k.val c d else 0) := by
      intro P Q _ _ R _ h
      rw [← sum_Icc_neg]
      refine sum_congr rfl fun c _ => sum_congr rfl fun d _ => ?_
      rw [hk.even0]
      have := h (-c)
      rw [neg_neg] at this
      by_cases h1 : P (-c) <;> by_cases h2 : R d <;> simp [h1, h2, this.1, ← this] 
    have hij : ((a.n - 1 - i : ℕ) : ℤ) - ((a.n - 1 - u : ℕ) : ℤ) = -((i : ℤ) - u) := by omega
    have hw : ∀ N : ℤ, ∀ c : ℤ, N ∣ (i : ℤ) - u - c ↔ N ∣ ((a.n - 1 - i : ℕ) : ℤ) - ((a.n - 1 - u : ℕ) : ℤ) - -c := by
      intro N c
      rw [hij, ← dvd_neg]
      ring_nf
    have hfl : ∀ c : ℤ, (i : ℤ) - u = c ↔ ((a.n - 1 - i : ℕ) : ℤ) - ((a.n - 1 - u : ℕ) : ℤ) = -c := by
      intro c
      rw [hij]
      omega
    cases b with
    | wrap => exact key _ _ (fun d => ((max a.m (2 * k.r + 1) : ℕ) : ℤ) ∣ (j : ℤ) - v - d) (hw _)
    | fill => exact key _ _ (fun d => (j : ℤ) - v = d) hfl
    | other => exact key _ _ (fun d => (j : ℤ) - v = d) hfl
  | swap =>
    have key : ∀ P Q : ℤ → Prop, ∀ [DecidablePred P] [DecidablePred Q],
        ∑ c ∈ Icc (-(k.r : ℤ)) k.r, ∑ d ∈ Icc (-(k.r : ℤ)) k.r, (if P c ∧ Q d then k.val c d else 0)
        = ∑ c ∈ Icc (-(k.r : ℤ)) k.r, ∑ d ∈ Icc (-(k.r : ℤ)) k.r, (if Q c ∧ P d then k.val c d else 0) := by
      intro P Q _ _
      rw [sum_comm]
      refine sum_congr rfl fun c _ => sum_congr rfl fun d _ => ?_
      rw [hk.swap d c]
      simp only [and_comm]
    cases b with
    | wrap => exact key (fun c => ((max a.m (2 * k.r + 1) : ℕ) : ℤ) ∣ (i : ℤ) - u - c) (fun d => ((max a.n (2 * k.r + 1) : ℕ) : ℤ) ∣ (j : ℤ) - v - d)
    | fill => exact key (fun c => (i : ℤ) - u = c) (fun d => (j : ℤ) - v = d)
    | other => exact key (fun c => (i : ℤ) - u = c) (fun d => (j : ℤ) - v = d)
  | roll s =>
    obtain ⟨rfl, hfit⟩ := hf
    have hi' : i < a.n := hi
    have hn : 0 < a.n := by omega
    have hmax : max a.n (2 * k.r + 1) = a.n := by omega
    have hd : ∀ c : ℤ, (a.n : ℤ) ∣ (i : ℤ) - u - c ↔ (a.n : ℤ) ∣ ((rollIx a.n s i : ℕ) : ℤ) - ((rollIx a.n s u : ℕ) : ℤ) - c := by
      intro c
      obtain ⟨x, hx⟩ : (a.n : ℤ) ∣ ((rollIx a.n s i : ℕ) : ℤ) - ((i : ℤ) - s) := by
        rw [rollIx_cast hn]
        exact Int.ModEq.dvd (Int.mod_modEq _ _).symm
      obtain ⟨y, hy⟩ : (a.n : ℤ) ∣ ((rollIx a.n s u : ℕ) : ℤ) - ((u : ℤ) - s) := by
        rw [rollIx_cast hn]
        exact Int.ModEq.dvd (Int.mod_modEq _ _).symm
      have e : ((rollIx a.n s i : ℕ) : ℤ) - ((rollIx a.n s u : ℕ) : ℤ) - c = (i : ℤ) - u - c + a.n * (x - y) := by
        rw [mul_sub, ← hx, ← hy]
        ring
      rw [e, Int.dvd_add_left (dvd_mul_right _ _)]
    show k.wrapCoef a.n a.m i j u v = k.wrapCoef a.n a.m (rollIx a.n s i) j (rollIx a.n s u) v
    unfold Kern.wrapCoef
    rw [hmax]
    refine sum_congr rfl fun c _ => sum_congr rfl fun d _ => ?_
    simp only [hd c]

/-! ### the statistics -/

theorem pad_get {α : Type*} (junk : ℕ → ℕ → α) (v : α) (a : Arr2 α) (p : ℕ) (hp : 0 < p) (i j : ℕ) (hi : i < a.n + 2 * p)
    (hj : j < a.m + 2 * p) : (npPad2 junk (padWith v) a p).get i j =
      if p ≤ i ∧ i < a.n + p ∧ p ≤ j ∧ j < a.m + p then a.get (i - p) (j - p) else v := by
  obtain ⟨hn, hm, hin, hout⟩ := C23_pad_image junk v a p hp
  split_ifs with h
  · have := hin (i - p) (by omega) (j - p) (by omega)
    rwa [show i - p + p = i by omega, show j - p + p = j by omega] at this
  · exact hout i (by rw [hn]; exact hi) j (by rw [hm]; exact hj) (by omega)

theorem dv_pad_rearranged {α : Type} (t : DvMove) (ht : ∀ s, t ≠ .roll s) (junk junk' : ℕ → ℕ → α) (v : α) (a : Arr2 α) (p : ℕ) (hp : 0 < p) :
    Rearranged (t.σ (npPad2 junk (padWith v) a p).n) (npPad2 junk' (padWith v) (t.on a) p) (npPad2 junk (padWith v) a p) := by
  intro i hi j hj
  cases t with
  | mirror =>
    have hi' : i < a.n + 2 * p := hi
    have hj' : j < a.m + 2 * p := hj
    show _ = (npPad2 junk (padWith v) a p).get (a.n + 2 * p - 1 - i) j
    rw [pad_get junk' v (DvMove.mirror.on a) p hp i j hi' hj', pad_get junk v a p hp _ j (by omega) hj']
    show (if p ≤ i ∧ i < a.n + p ∧ p ≤ j ∧ j < a.m + p then a.get (a.n - 1 - (i - p)) (j - p) else v) = _
    by_cases h : p ≤ i ∧ i < a.n + p ∧ p ≤ j ∧ j < a.m + p
    · rw [if_pos h, if_pos (by omega), show a.n + 2 * p - 1 - i - p = a.n - 1 - (i - p) by omega]
    · rw [if_neg h, if_neg (by omega)]
  | swap =>
    have hi' : i < a.m + 2 * p := hi
    have hj' : j < a.n + 2 * p := hj
    show _ = (npPad2 junk (padWith v) a p).get j i
    rw [pad_get junk' v (DvMove.swap.on a) p hp i j hi' hj', pad_get junk v a p hp j i hj' hi']
    show (if p ≤ i ∧ i < a.m + p ∧ p ≤ j ∧ j < a.n + p then a.get (j - p) (i - p) else v) = _
    by_cases h : p ≤ i ∧ i < a.m + p ∧ p ≤ j ∧ j < a.n + p
    · rw [if_pos h, if_pos (by omega)]
    · rw [if_neg h, if_neg (by omega)]
  | roll s => exact absurd rfl (ht s)

theorem dv_pad_size {α : Type} (t : DvMove) (junk junk' : ℕ → ℕ → α) (cb : Arr1 α → ℕ → ℕ → Arr1 α) (a : Arr2 α) (p : ℕ) :
    (npPad2 junk' cb (t.on a) p).n = (t.on (npPad2 junk cb a p)).n ∧ (npPad2 junk' cb (t.on a) p).m = (t.on (npPad2 junk cb a p)).m := by
  cases t <;> exact ⟨rfl, rfl⟩

/-- The general statement: a move that is a symmetry of both convolutions leaves the delta-variance at a lag as it is. -/
private theorem lag_move (t : DvMove) (junkI junkI' : ℕ → ℕ → Option ℝ) (junkW junkW' : ℕ → ℕ → ℝ) (b : DvBoundary) (frac : ℝ) (preserve : Bool)
    (ratio : ℝ) {lag : ℝ} (hlag : 1 ≤ lag) (img : Arr2 (Option ℝ)) (w : Arr2 ℝ) (hwn : w.n = img.n) (hwm : w.m = img.m)
    (hfit : t.fits b (coreKernel lag) img.n) :
    deltaVarLag junkI' junkW' b frac preserve ratio lag (t.on img) (t.on w) = deltaVarLag junkI junkW b frac preserve ratio lag img w := by
  obtain ⟨i1, i2, -⟩ := C86_isotropic lag ratio 1
  have hmax : npMax (t.on w).ravel = npMax w.ravel := npMax_perm (ravel_perm (dv_move_map t w) rfl rfl (dv_move_rearranged t w))
  unfold deltaVarLag deltaVarAt
  rw [hmax]
  cases b with
  | wrap =>
    simp only [dvPad, bind, Except.bind, pure, Except.pure]
    cases npMax w.ravel with
    | error e => rfl
    | ok wm =>
      simp only
      congr 1
      set pi : Arr2 (Option ℝ) := ⟨img.n, img.m, fun i j => mulO (img.get i j) (some (w.get i j))⟩ with hpi
      have hσ : t.σ img.n = t.σ w.n := by rw [hwn]
      have hpi' : (⟨(t.on img).n, (t.on img).m, fun i j => mulO ((t.on img).get i j) (some ((t.on w).get i j))⟩ : Arr2 (Option ℝ))
          = t.on pi := by
        cases t with
        | mirror => simp only [DvMove.on, Spec.mirror0, hpi, hwn]
        | swap => simp only [DvMove.on, Spec.transposed, hpi]
        | roll s => simp only [DvMove.on, Arr2.roll0, hpi, hwn]
      rw [hpi']
      have hon : (t.on w).n = (t.on pi).n ∧ (t.on w).m = (t.on pi).m := by
        cases t
        · exact ⟨hwn, hwm⟩
        · exact ⟨hwm, hwn⟩
        · exact ⟨hwn, hwm⟩
      have hmw : Rearranged (t.σ pi.n) (t.on w) w := by
        have := dv_move_rearranged t w
        rwa [hwn] at this
      have f1 := dv_follows_coef t .wrap i1 pi (by cases t <;> first | trivial | exact hfit)
      have f2 := dv_follows_coef t .wrap i2 pi (by cases t <;> first | trivial | exact hfit)
      have hon2 : (t.on pi).n = (t.on img).n ∧ (t.on pi).m = (t.on img).m := by cases t <;> exact ⟨rfl, rfl⟩
      rw [hon2.1, hon2.2] at f1 f2
      obtain ⟨d1, d2⟩ := dvFilter_rearranged (n' := (t.on img).n) (m' := (t.on img).m) (pi := pi) (pi' := t.on pi) (pw := w) (pw' := t.on w)
        (σ := t.σ pi.n) (by rw [← hon2.1, ← hon2.2]; exact dv_move_map t pi) hwn hwm hon2.1 hon2.2 (hon.1.trans hon2.1) (hon.2.trans hon2.2) (dv_move_rearranged t pi) hmw
        f1 f2 (frac * wm) preserve
      have hmp : PixelMap (t.on img).n (t.on img).m pi.n pi.m (t.σ pi.n) := by rw [← hon2.1, ← hon2.2]; exact dv_move_map t pi
      have hfin := fun h1 h2 h3 h4 h5 h6 h7 => delvar_rearranged (n' := (t.on img).n) (m' := (t.on img).m) h1 h2 h3 h4 h5 h6 h7 d1 d2 lag
      exact hfin hmp rfl rfl hon2.1 hon2.2 hon2.1 hon2.2
  | fill =>
    have ht : ∀ s, t ≠ .roll s := by
      rintro s rfl
      exact absurd hfit.1 (by simp)
    have hp : 0 < (pyInt lag).toNat := by
      have h1 : (1 : ℤ) ≤ ⌊lag⌋ := Int.le_floor.2 (by simpa using hlag)
      have : pyInt lag = ⌊lag⌋ := by
        unfold pyInt
        rw [if_pos (by linarith)]
      rw [this]
      omega
    set p := (pyInt lag).toNat with hpdef
    simp only [dvPad, bind, Except.bind, pure, Except.pure, ← hpdef]
    cases npMax w.ravel with
    | error e => rfl
    | ok wm =>
      simp only
      congr 1
      set pw := npPad2 junkW (padWith 0) w p with hpw
      set pw' := npPad2 junkW' (padWith 0) (t.on w) p with hpw'
      set qi := npPad2 junkI (padWith (some 0)) img p with hqi
      set qi' := npPad2 junkI' (padWith (some 0)) (t.on img) p with hqi'
      set pi : Arr2 (Option ℝ) := ⟨qi.n, qi.m, fun i j => mulO (qi.get i j) (some (pw.get i j))⟩ with hpi
      have r1 : Rearranged (t.σ qi.n) qi' qi := dv_pad_rearranged t ht junkI junkI' (some 0) img p hp
      have r2 : Rearranged (t.σ pw.n) pw' pw := dv_pad_rearranged t ht junkW junkW' 0 w p hp
      obtain ⟨s1, s2⟩ := dv_pad_size t junkI junkI' (padWith (some 0)) img p
      obtain ⟨s3, s4⟩ := dv_pad_size t junkW junkW' (padWith 0) w p
      have hpn : pw.n = qi.n := by show w.n + 2 * p = img.n + 2 * p; rw [hwn]
      have hpm : pw.m = qi.m := by show w.m + 2 * p = img.m + 2 * p; rw [hwm]
      have hsz : pw'.n = qi'.n ∧ pw'.m = qi'.m := by
        constructor
        · show (t.on w).n + 2 * p = (t.on img).n + 2 * p
          cases t <;> simp [DvMove.on, Spec.mirror0, Spec.transposed, Arr2.roll0, hwn, hwm]
        · show (t.on w).m + 2 * p = (t.on img).m + 2 * p
          cases t <;> simp [DvMove.on, Spec.mirror0, Spec.transposed, Arr2.roll0, hwn, hwm]
      rw [hpn] at r2
      have r3 : Rearranged (t.σ pi.n) (⟨qi'.n, qi'.m, fun i j => mulO (qi'.get i j) (some (pw'.get i j))⟩ : Arr2 (Option ℝ)) pi := by
        intro i hi j hj
        have hi' : i < qi'.n := hi
        have hj' : j < qi'.m := hj
        show mulO (qi'.get i j) (some (pw'.get i j)) = _
        rw [r1 i hi' j hj', r2 i (by rw [hsz.1]; exact hi') j (by rw [hsz.2]; exact hj')]
      have hmap : PixelMap qi'.n qi'.m pi.n pi.m (t.σ pi.n) := by
        have := dv_move_map t qi
        rw [← s1, ← s2] at this
        exact this
      have f1 := dv_follows_coef t .fill i1 qi (by cases t <;> first | trivial | exact absurd rfl (ht _))
      have f2 := dv_follows_coef t .fill i2 qi (by cases t <;> first | trivial | exact absurd rfl (ht _))
      rw [← s1, ← s2] at f1 f2
      obtain ⟨d1, d2⟩ := dvFilter_rearranged (n' := qi'.n) (m' := qi'.m) (pi := pi)
        (pi' := ⟨qi'.n, qi'.m, fun i j => mulO (qi'.get i j) (some (pw'.get i j))⟩) (pw := pw) (pw' := pw')
        (σ := t.σ pi.n) hmap hpn hpm rfl rfl hsz.1 hsz.2 r3 r2 f1 f2 (frac * wm) preserve
      have hfin := fun h1 h2 h3 h4 h5 h6 h7 => delvar_rearranged (n' := qi'.n) (m' := qi'.m) h1 h2 h3 h4 h5 h6 h7 d1 d2 lag
      exact hfin hmap rfl rfl rfl rfl rfl rfl
  | other => rfl

theorem dv_mapM_ext {α β : Type} {l : List α} {f g : α → Py β} (h : ∀ a ∈ l, f a = g a) : l.mapM f = l.mapM g := by
  induction l with
  | nil => rfl
  | cons a l ih =>
    rw [List.mapM_cons, List.mapM_cons, h a (by simp), ih fun x hx => h x (by simp [hx])]

/-- The delta-variance curve of a map that is turned upside down (with its weights) is the same, with either boundary and all options. -/
theorem C86_mirror (junkI junkI' : ℕ → ℕ → Option ℝ) (junkW junkW' : ℕ → ℕ → ℝ) (b : DvBoundary) (frac : ℝ) (preserve : Bool) (ratio : ℝ)
    {lags : List ℝ} (hl : ∀ l ∈ lags, 1 ≤ l) (img : Arr2 (Option ℝ)) (w : Arr2 ℝ) (hwn : w.n = img.n) (hwm : w.m = img.m) :
    computeDeltavar junkI' junkW' b frac preserve ratio lags (Spec.mirror0 img) (Spec.mirror0 w)
      = computeDeltavar junkI junkW b frac preserve ratio lags img w :=
  dv_mapM_ext fun l hl' => lag_move .mirror junkI junkI' junkW junkW' b frac preserve ratio (hl l hl') img w hwn hwm trivial

/-- The same for exchanged rows and columns; with `C86_mirror` this covers all turns by a right angle and all mirror images. -/
theorem C86_transpose (junkI junkI' : ℕ → ℕ → Option ℝ) (junkW junkW' : ℕ → ℕ → ℝ) (b : DvBoundary) (frac : ℝ) (preserve : Bool) (ratio : ℝ)
    {lags : List ℝ} (hl : ∀ l ∈ lags, 1 ≤ l) (img : Arr2 (Option ℝ)) (w : Arr2 ℝ) (hwn : w.n = img.n) (hwm : w.m = img.m) :
    computeDeltavar junkI' junkW' b frac preserve ratio lags (Spec.transposed img) (Spec.transposed w)
      = computeDeltavar junkI junkW b frac preserve ratio lags img w :=
  dv_mapM_ext fun l hl' => lag_move .swap junkI junkI' junkW junkW' b frac preserve ratio (hl l hl') img w hwn hwm trivial

/-- Left and right exchanged. -/
theorem C86_mirror_sides (junkI junkI' : ℕ → ℕ → Option ℝ) (junkW junkW' : ℕ → ℕ → ℝ) (b : DvBoundary) (frac : ℝ) (preserve : Bool) (ratio : ℝ)
    {lags : List ℝ} (hl : ∀ l ∈ lags, 1 ≤ l) (img : Arr2 (Option ℝ)) (w : Arr2 ℝ) (hwn : w.n = img.n) (hwm : w.m = img.m) :
    computeDeltavar junkI' junkW' b frac preserve ratio lags (Spec.mirror1 img) (Spec.mirror1 w)
      = computeDeltavar junkI junkW b frac preserve ratio lags img w := by
  have h1 := C86_transpose junkI junkI' junkW junkW' b frac preserve ratio hl (Spec.mirror0 (Spec.transposed img)) (Spec.mirror0 (Spec.transposed w))
    hwm hwn
  have h2 := C86_mirror junkI junkI junkW junkW b frac preserve ratio hl (Spec.transposed img) (Spec.transposed w) hwm hwn
  have h3 := C86_transpose junkI junkI junkW junkW b frac preserve ratio hl img w hwn hwm
  rw [← h3, ← h2, ← h1]
  rfl

/-- With periodic boundaries the curve does not depend on where the map is cut out of the period, as long as the kernels of all lags fit
into the map.  Missing from the full statement: larger lags (see `C86_wrap_violated`). -/
theorem C86_roll_partial (junkI junkI' : ℕ → ℕ → Option ℝ) (junkW junkW' : ℕ → ℕ → ℝ) (frac : ℝ) (preserve : Bool) (ratio : ℝ) {lags : List ℝ}
    (hl : ∀ l ∈ lags, 1 ≤ l) (img : Arr2 (Option ℝ)) (w : Arr2 ℝ) (hwn : w.n = img.n) (hwm : w.m = img.m)
    (hfit : ∀ l ∈ lags, 2 * (coreKernel l).r + 1 ≤ min img.n img.m) (s0 s1 : ℤ) :
    computeDeltavar junkI' junkW' .wrap frac preserve ratio lags ((img.roll0 s0).roll1 s1) ((w.roll0 s0).roll1 s1)
      = computeDeltavar junkI junkW .wrap frac preserve ratio lags img w := by
  have h0 : computeDeltavar junkI junkW .wrap frac preserve ratio lags (img.roll0 s0) (w.roll0 s0)
      = computeDeltavar junkI junkW .wrap frac preserve ratio lags img w :=
    dv_mapM_ext fun l hl' => lag_move (.roll s0) junkI junkI junkW junkW .wrap frac preserve ratio (hl l hl') img w hwn hwm
      ⟨rfl, (hfit l hl').trans (min_le_left _ _)⟩
  rw [← h0]
  set img1 := img.roll0 s0
  set w1 := w.roll0 s0
  have h1 := C86_transpose junkI junkI' junkW junkW' .wrap frac preserve ratio hl ((Spec.transposed img1).roll0 s1) ((Spec.transposed w1).roll0 s1)
    hwm hwn
  have h2 : computeDeltavar junkI junkW .wrap frac preserve ratio lags ((Spec.transposed img1).roll0 s1) ((Spec.transposed w1).roll0 s1)
      = computeDeltavar junkI junkW .wrap frac preserve ratio lags (Spec.transposed img1) (Spec.transposed w1) :=
    dv_mapM_ext fun l hl' => lag_move (.roll s1) junkI junkI junkW junkW .wrap frac preserve ratio (hl l hl') (Spec.transposed img1) (Spec.transposed w1)
      hwm hwn ⟨rfl, (hfit l hl').trans (min_le_right _ _)⟩
  have h3 := C86_transpose junkI junkI junkW junkW .wrap frac preserve ratio hl img1 w1 hwn hwm
  rw [← h3, ← h2, ← h1]
  rfl

/-! ### kernels larger than the map -/

/-- The convolution of the constant map 1. -/
theorem dv_wrap_ones (k : Kern) (n m i j : ℕ) (N M : ℕ) (hN : N = max n (2 * k.r + 1)) (hM : M = max m (2 * k.r + 1)) :
    (applyK (k.wrapCoef n m) ⟨n, m, fun _ _ => 1⟩).get i j =
      ∑ a ∈ Icc (-(k.r : ℤ)) k.r, ∑ b ∈ Icc (-(k.r : ℤ)) k.r, if ((i : ℤ) - a) % N < n ∧ ((j : ℤ) - b) % M < m then k.val a b else 0 := by
  subst hN hM
  set N := max n (2 * k.r + 1)
  set M := max m (2 * k.r + 1)
  have hN0 : (0 : ℤ) < N := by have : 2 * k.r + 1 ≤ N := le_max_right _ _; omega
  have hM0 : (0 : ℤ) < M := by have : 2 * k.r + 1 ≤ M := le_max_right _ _; omega
  have hnN : n ≤ N := le_max_left _ _
  have hmM : m ≤ M := le_max_left _ _
  have hone : ∀ (n N : ℕ) (i : ℕ) (a : ℤ), n ≤ N → (0 : ℤ) < N → ∀ c : ℝ,
      ∑ u ∈ range n, (if (N : ℤ) ∣ (i : ℤ) - u - a then c else 0) = if ((i : ℤ) - a) % N < n then c else 0 := by
    intro n N i a hnN hN c
    have hmod : ∀ u ∈ range n, ((N : ℤ) ∣ (i : ℤ) - u - a ↔ u = (((i : ℤ) - a) % N).toNat) := by
      intro u hu
      have hu' := mem_range.1 hu
      have h0 := Int.emod_nonneg ((i : ℤ) - a) hN.ne'
      have h1 := Int.emod_lt_of_pos ((i : ℤ) - a) hN
      rw [show (i : ℤ) - u - a = (i : ℤ) - a - u by ring]
      constructor
      · intro h
        have := Int.emod_emod_of_dvd ((i : ℤ) - a) (dvd_refl (N : ℤ))
        have h2 : ((i : ℤ) - a) % N = (u : ℤ) % N := Int.emod_eq_emod_iff_emod_sub_eq_zero.2 (Int.emod_eq_zero_of_dvd h)
        rw [Int.emod_eq_of_lt (by omega) (by omega : (u : ℤ) < N)] at h2
        omega
      · intro h
        have h2 : (u : ℤ) = ((i : ℤ) - a) % N := by omega
        rw [h2]
        exact Int.dvd_self_sub_emod
    rw [sum_congr rfl fun u hu => if_congr (hmod u hu) rfl rfl, sum_ite_eq']
    have h0 := Int.emod_nonneg ((i : ℤ) - a) hN.ne'
    refine if_congr ?_ rfl rfl
    rw [mem_range]
    omega
  show ∑ u ∈ range n, ∑ v ∈ range m, k.wrapCoef n m i j u v * 1 = _
  simp only [Kern.wrapCoef, mul_one]
  have hcomm : ∀ f : ℕ → ℕ → ℤ → ℤ → ℝ, ∑ u ∈ range n, ∑ v ∈ range m, ∑ a ∈ Icc (-(k.r : ℤ)) k.r, ∑ b ∈ Icc (-(k.r : ℤ)) k.r, f u v a b
      = ∑ a ∈ Icc (-(k.r : ℤ)) k.r, ∑ b ∈ Icc (-(k.r : ℤ)) k.r, ∑ u ∈ range n, ∑ v ∈ range m, f u v a b := by
    intro f
    calc _ = ∑ u ∈ range n, ∑ a ∈ Icc (-(k.r : ℤ)) k.r, ∑ v ∈ range m, ∑ b ∈ Icc (-(k.r : ℤ)) k.r, f u v a b :=
          sum_congr rfl fun u _ => sum_comm
      _ = ∑ a ∈ Icc (-(k.r : ℤ)) k.r, ∑ u ∈ range n, ∑ v ∈ range m, ∑ b ∈ Icc (-(k.r : ℤ)) k.r, f u v a b := sum_comm
      _ = ∑ a ∈ Icc (-(k.r : ℤ)) k.r, ∑ u ∈ range n, ∑ b ∈ Icc (-(k.r : ℤ)) k.r, ∑ v ∈ range m, f u v a b :=
          sum_congr rfl fun a _ => sum_congr rfl fun u _ => sum_comm
      _ = _ := sum_congr rfl fun a _ => sum_comm
  rw [hcomm]
  refine sum_congr rfl fun a _ => sum_congr rfl fun b _ => ?_
  have step : ∀ u : ℕ, ∑ v ∈ range m, (if (N : ℤ) ∣ (i : ℤ) - u - a ∧ (M : ℤ) ∣ (j : ℤ) - v - b then k.val a b else 0)
      = if (N : ℤ) ∣ (i : ℤ) - u - a then (if ((j : ℤ) - b) % M < m then k.val a b else 0) else 0 := by
    intro u
    by_cases h : (N : ℤ) ∣ (i : ℤ) - u - a
    · simp only [h, true_and, if_true]
      exact hone m M j b hmM hM0 _
    · simp [h]
  refine (sum_congr rfl fun u _ => step u).trans ?_
  rw [hone n N i a hnN hN0]
  by_cases h1 : ((i : ℤ) - a) % N < n <;> by_cases h2 : ((j : ℤ) - b) % M < m <;> simp [h1, h2]

/-- A periodic convolution of the constant 1 with weights of sum one is 1 everywhere.  This is so when the kernel fits into the map; with
a larger kernel the routine surrounds the map by zeros although the boundary is 'wrap', and the result is less than 1 at every pixel. -/
theorem C86_wrap_violated {lag : ℝ} (hl : 0 < lag) (n m : ℕ) (hn : 0 < n) (hm : 0 < m) (i j : ℕ) :
    (2 * (coreKernel lag).r + 1 ≤ min n m → (applyK ((coreKernel lag).normalised.coef .wrap n m) ⟨n, m, fun _ _ => 1⟩).get i j = 1) ∧
    (n < 2 * (coreKernel lag).r + 1 → (applyK ((coreKernel lag).normalised.coef .wrap n m) ⟨n, m, fun _ _ => 1⟩).get i j < 1) := by
  obtain ⟨hpos, hsum, -⟩ := C86_weights hl (one_lt_two)
  set k := (coreKernel lag).normalised with hk
  have hr : k.r = (coreKernel lag).r := rfl
  have hN0 : (0 : ℤ) < (max n (2 * k.r + 1) : ℕ) := by have : n ≤ max n (2 * k.r + 1) := le_max_left _ _; omega
  have hM0 : (0 : ℤ) < (max m (2 * k.r + 1) : ℕ) := by have : m ≤ max m (2 * k.r + 1) := le_max_left _ _; omega
  have hw := dv_wrap_ones k n m i j _ _ rfl rfl
  constructor
  · intro h
    show (applyK (k.wrapCoef n m) ⟨n, m, fun _ _ => 1⟩).get i j = 1
    rw [hw, ← hsum]
    refine sum_congr rfl fun a _ => sum_congr rfl fun b _ => ?_
    rw [if_pos]
    have e1 : max n (2 * k.r + 1) = n := by omega
    have e2 : max m (2 * k.r + 1) = m := by omega
    rw [e1] at hN0 ⊢
    rw [e2] at hM0 ⊢
    exact ⟨Int.emod_lt_of_pos _ hN0, Int.emod_lt_of_pos _ hM0⟩
  · intro h
    show (applyK (k.wrapCoef n m) ⟨n, m, fun _ _ => 1⟩).get i j < 1
    rw [hw, ← hsum]
    have e1 : max n (2 * k.r + 1) = 2 * k.r + 1 := by omega
    rw [e1] at hN0 ⊢
    have hle : ∀ a b : ℤ, (if ((i : ℤ) - a) % ((2 * k.r + 1 : ℕ) : ℤ) < n ∧ ((j : ℤ) - b) % ((max m (2 * k.r + 1) : ℕ) : ℤ) < m then k.val a b else 0)
        ≤ k.val a b := by
      intro a b
      split_ifs
      · exact le_rfl
      · exact (hpos a b).le
    -- an offset that leads out of the map
    set N : ℤ := ((2 * k.r + 1 : ℕ) : ℤ) with hN
    set a0 : ℤ := (((i : ℤ) - n) + k.r) % N - k.r with ha0
    have hb0 := Int.emod_nonneg (((i : ℤ) - n) + k.r) hN0.ne'
    have hb1 := Int.emod_lt_of_pos (((i : ℤ) - n) + k.r) hN0
    have ha : a0 ∈ Icc (-(k.r : ℤ)) k.r := by
      rw [mem_Icc]
      push_cast at hN
      omega
    have hout : ¬ ((i : ℤ) - a0) % N < n := by
      have hd : N ∣ (i : ℤ) - a0 - n := by
        have : (i : ℤ) - a0 - n = (((i : ℤ) - n) + k.r) - (((i : ℤ) - n) + k.r) % N := by rw [ha0]; ring
        rw [this]
        exact Int.dvd_self_sub_emod
      have h2 : ((i : ℤ) - a0) % N = (n : ℤ) % N := Int.emod_eq_emod_iff_emod_sub_eq_zero.2 (Int.emod_eq_zero_of_dvd hd)
      rw [h2, Int.emod_eq_of_lt (by omega) (by push_cast at hN; omega)]
      omega
    refine sum_lt_sum (fun a _ => sum_le_sum fun b _ => hle a b) ⟨a0, ha, ?_⟩
    refine sum_lt_sum_of_nonempty ⟨0, by simp⟩ fun b _ => ?_
    rw [if_neg fun hh => hout hh.1]
    exact hpos a0 b

/-- With default lags, up to half the smaller side, the largest kernel never fits into the map. -/
theorem C86_default_lags_violated (n : ℕ) (hn : 0 < n) : n < 2 * (coreKernel ((n : ℝ) / 2)).r + 1 := by
  have h8 : 8 * ((n : ℝ) / 2 / (2 * Real.sqrt 2)) = Real.sqrt 2 * n := by
    have h2 : Real.sqrt 2 * Real.sqrt 2 = 2 := Real.mul_self_sqrt (by norm_num)
    have h0 : Real.sqrt 2 ≠ 0 := by positivity
    field_simp
    nlinarith
  have hlt : (n : ℝ) < Real.sqrt 2 * n := by
    have : (1 : ℝ) < Real.sqrt 2 := by
      rw [Real.lt_sqrt (by norm_num)]
      norm_num
    have hn' : (0 : ℝ) < n := by exact_mod_cast hn
    nlinarith
  have hc : n < ⌈Real.sqrt 2 * n⌉₊ := Nat.lt_ceil.2 hlt
  show n < 2 * ((roundUpOdd (8 * ((n : ℝ) / 2 / (2 * Real.sqrt 2))) - 1) / 2) + 1
  rw [h8]
  unfold roundUpOdd
  split_ifs with h <;> omega

/-! ### wavelets -/

private theorem wavelet_move (t : DvMove) (b : DvBoundary) (sn : Bool) (an : ℝ) (img : Arr2 (Option ℝ)) (hfit : t.fits b (rickerKern an) img.n) :
    waveletValue ((rickerKern an).coef b (t.on img).n (t.on img).m) sn an (t.on img) = waveletValue ((rickerKern an).coef b img.n img.m) sn an img ∧
    waveletStd ((rickerKern an).coef b (t.on img).n (t.on img).m) sn an (t.on img) = waveletStd ((rickerKern an).coef b img.n img.m) sn an img := by
  obtain ⟨-, -, i3⟩ := C86_isotropic 1 1 an
  have hr : Rearranged (t.σ img.n) (waveletData (t.on img)) (waveletData img) := by
    intro i hi j hj
    show ((t.on img).get i j).getD 0 = _
    rw [dv_move_rearranged t img i hi j hj]
    rfl
  have hk := applyK_rearranged (a := waveletData img) (b := waveletData (t.on img)) (dv_move_map t img) rfl rfl hr (dv_follows_coef t b i3 img hfit)
  have hmap : Rearranged (t.σ img.n) (waveletMap ((rickerKern an).coef b (t.on img).n (t.on img).m) sn an (t.on img))
      (waveletMap ((rickerKern an).coef b img.n img.m) sn an img) := by
    intro i hi j hj
    show (applyK _ _).get i j * _ = _
    rw [hk i hi j hj]
    rfl
  have hperm : (waveletMap ((rickerKern an).coef b (t.on img).n (t.on img).m) sn an (t.on img)).ravel.Perm
      (waveletMap ((rickerKern an).coef b img.n img.m) sn an img).ravel :=
    ravel_perm (a := waveletMap ((rickerKern an).coef b img.n img.m) sn an img) (dv_move_map t img) rfl rfl hmap
  have hcard : (t.on img).n * (t.on img).m = img.n * img.m := (dv_move_map t img).card
  constructor
  · exact meanO_perm (hperm.filter _)
  · unfold waveletStd
    simp only
    rw [varO_perm (hperm.filter _)]
    have h1 : (waveletMap ((rickerKern an).coef b (t.on img).n (t.on img).m) sn an (t.on img)).n *
        (waveletMap ((rickerKern an).coef b (t.on img).n (t.on img).m) sn an (t.on img)).m = img.n * img.m := hcard
    have h2 : (waveletMap ((rickerKern an).coef b img.n img.m) sn an img).n * (waveletMap ((rickerKern an).coef b img.n img.m) sn an img).m
        = img.n * img.m := rfl
    rw [h1, h2]

/-- Wavelet transform: the values and errors of the map upside down or with rows and columns exchanged are the same, with either
boundary. -/
theorem C86_wavelet (b : DvBoundary) (sn : Bool) (scales : List ℝ) (img : Arr2 (Option ℝ)) :
    computeTransform b sn scales (Spec.mirror0 img) = computeTransform b sn scales img ∧
    computeTransform b sn scales (Spec.transposed img) = computeTransform b sn scales img := by
  constructor <;> refine List.map_congr_left fun an _ => ?_
  · obtain ⟨h1, h2⟩ := wavelet_move .mirror b sn an img trivial
    exact Prod.ext h1 h2
  · obtain ⟨h1, h2⟩ := wavelet_move .swap b sn an img trivial
    exact Prod.ext h1 h2

/-- With `boundary='wrap'` the wavelet values do not depend on where the map is cut out of the period, for scales whose kernel fits. -/
theorem C86_wavelet_roll (sn : Bool) (scales : List ℝ) (img : Arr2 (Option ℝ)) (hfit : ∀ an ∈ scales, 2 * (rickerKern an).r + 1 ≤ img.n) (s : ℤ) :
    computeTransform .wrap sn scales (img.roll0 s) = computeTransform .wrap sn scales img := by
  refine List.map_congr_left fun an h => ?_
  obtain ⟨h1, h2⟩ := wavelet_move (.roll s) .wrap sn an img ⟨rfl, hfit an h⟩
  exact Prod.ext h1 h2

/-- The kernel of lag 3 fits into a map of 11 pixels: the hypotheses of `C86_roll_partial` can be met. -/
example : 2 * (coreKernel 3).r + 1 ≤ min 11 11 := by
  have h : 8 * ((3 : ℝ) / (2 * Real.sqrt 2)) ≤ 9 := by
    have h0 : 0 < Real.sqrt 2 := by positivity
    have h2 : (1.4 : ℝ) ≤ Real.sqrt 2 := by
      rw [Real.le_sqrt' (by norm_num)]
      norm_num
    rw [mul_div_assoc', div_le_iff₀ (by positivity)]
    nlinarith
  have hc : ⌈8 * ((3 : ℝ) / (2 * Real.sqrt 2))⌉₊ ≤ 9 := Nat.ceil_le.2 (by exact_mod_cast h)
  show 2 * ((roundUpOdd (8 * ((3 : ℝ) / (2 * Real.sqrt 2))) - 1) / 2) + 1 ≤ 11
  unfold roundUpOdd
  split_ifs <;> omega

end TS
