import Verif.Model.MomentsDist
import Verif.Props.C19
import Verif.Props.C42
import Verif.Props.C43
import Verif.Props.C64
import Verif.Props.C88

/-! C89 — the distance of two images by their skewness and kurtosis maps. -/

namespace TS
open Finset Spec

namespace Spec

/-- Both lists have numbers, not all of them equal. -/
def Comparable (x y : List (Option ℝ)) : Prop :=
  (∃ v, some v ∈ x) ∧ (∃ v, some v ∈ y) ∧ ∃ v w, v ∈ joint x y ∧ w ∈ joint x y ∧ v ≠ w

end Spec

private theorem ends {x y : List (Option ℝ)} (h : Comparable x y) :
    ∃ lo hi, IsLeast (joint x y) lo ∧ IsGreatest (joint x y) hi ∧ lo < hi := by
  obtain ⟨⟨a, ha⟩, -, v, w, hv, hw, hvw⟩ := h
  have hj : ∀ t, t ∈ joint x y ↔ t ∈ validVals (x ++ y) := by
    intro t
    rw [mem_validVals, List.mem_append]; rfl
  have hne : validVals (x ++ y) ≠ [] := List.ne_nil_of_mem ((hj a).1 (Or.inl ha))
  obtain ⟨lo, hlo⟩ := exists_minO hne
  obtain ⟨hi, hhi⟩ := exists_maxO hne
  obtain ⟨p, q⟩ := minO_eq_some.1 hlo
  obtain ⟨r, s⟩ := maxO_eq_some.1 hhi
  refine ⟨lo, hi, ⟨(hj _).2 p, fun t ht => q t ((hj t).1 ht)⟩, ⟨(hj _).2 r, fun t ht => s t ((hj t).1 ht)⟩, ?_⟩
  have v1 := q v ((hj v).1 hv)
  have v2 := s v ((hj v).1 hv)
  have w1 := q w ((hj w).1 hw)
  have w2 := s w ((hj w).1 hw)
  rcases lt_or_gt_of_ne hvw with h | h <;> linarith

/-- The common edges, as bins of equal width between the extremes. -/
private theorem common_edges {x y : List (Option ℝ)} (h : Comparable x y) (n : ℕ) (hn : 2 ≤ n) :
    ∃ e w, commonHistogramBins 1 1 x y { nbins := some n } = .ok e ∧ JointEdges (validVals x) (validVals y) (n - 1) e ∧
      StrictEdges e ∧ 0 < w ∧ (∀ k, k + 1 < e.n → e.get (k + 1) - e.get k = w) ∧
      (∀ t ∈ validVals x, e.get 0 ≤ t ∧ t ≤ e.get (e.n - 1)) ∧ (∀ t ∈ validVals y, e.get 0 ≤ t ∧ t ≤ e.get (e.n - 1)) := by
  obtain ⟨lo, hi, hlo, hhi, hlt⟩ := ends h
  obtain ⟨⟨v1, hv1⟩, ⟨v2, hv2⟩, -⟩ := h
  obtain ⟨e, he, hen, hs, e0, e1, hw, -⟩ := C19_linear x y (some n) v1 v2 lo hi hv1 hv2 hlo hhi hlt hn
  have hen' : e.n = n := hen
  have hpos : (0 : ℝ) < (e.n : ℝ) - 1 := by
    have : (2 : ℝ) ≤ e.n := by rw [hen']; exact_mod_cast hn
    linarith
  have hset : {v | v ∈ validVals x ∨ v ∈ validVals y} = joint x y := by
    ext t
    simp only [Set.mem_setOf_eq, mem_validVals]
    rfl
  refine ⟨e, (hi - lo) / ((e.n : ℝ) - 1), he, ⟨by omega, lo, hi, by rw [hset]; exact hlo, by rw [hset]; exact hhi, ?_⟩, hs,
    div_pos (by linarith) hpos, hw, ?_, ?_⟩
  · intro k
    have hc : ((n - 1 : ℕ) : ℝ) = (e.n : ℝ) - 1 := by rw [hen']; push_cast [show 1 ≤ n by omega]; ring
    rw [hc]
    induction k with
    | zero => intro _; rw [e0]; simp
    | succ k ih =>
      intro hk
      have := hw k (by omega)
      rw [ih (by omega)] at this
      push_cast
      linarith
  · intro t ht
    rw [e0, e1]
    exact ⟨hlo.2 (Or.inl (mem_validVals.1 ht)), hhi.2 (Or.inl (mem_validVals.1 ht))⟩
  · intro t ht
    rw [e0, e1]
    exact ⟨hlo.2 (Or.inr (mem_validVals.1 ht)), hhi.2 (Or.inr (mem_validVals.1 ht))⟩

private theorem share_nn' (e : Arr1 ℝ) (x : List ℝ) (k : ℕ) : 0 ≤ share e x k := by unfold share; positivity

/-- Hellinger distance of two densities on common bins of width `w`: the square root of `w` times that of the shares. -/
private theorem hell_density (e : Arr1 ℝ) (hs : StrictEdges e) (hn : 2 ≤ e.n) (w : ℝ) (hw : 0 < w)
    (heq : ∀ k, k + 1 < e.n → e.get (k + 1) - e.get k = w) (x y : List ℝ)
    (hx : ∃ t ∈ x, e.get 0 ≤ t ∧ t ≤ e.get (e.n - 1)) (hy : ∃ t ∈ y, e.get 0 ≤ t ∧ t ≤ e.get (e.n - 1)) :
    hellinger (histDensity e x) (histDensity e y) w =
      .ok (Real.sqrt w * hell (e.n - 1) (share e x) (share e y)) := by
  have hvx := histDensity_value hs hn x hx
  have hvy := histDensity_value hs hn y hy
  unfold hellinger
  have n1 : (histDensity e x).n = e.n - 1 := rfl
  have n2 : (histDensity e y).n = e.n - 1 := rfl
  rw [if_neg (by rw [n1, n2]; simp), n1]
  have : ∀ k ∈ range (e.n - 1), hellTerm ((histDensity e x).get k) ((histDensity e y).get k) =
      (Real.sqrt (share e x k) - Real.sqrt (share e y k)) ^ 2 / w := by
    intro k hk
    rw [mem_range] at hk
    rw [hvx k hk, hvy k hk, heq k (by omega)]
    have a1 := share_nn' e x k
    have a2 := share_nn' e y k
    have b1 : ¬ share e x k / w < 0 := not_lt.2 (div_nonneg a1 hw.le)
    have b2 : ¬ share e y k / w < 0 := not_lt.2 (div_nonneg a2 hw.le)
    simp only [hellTerm, sqrtO, bind, Option.bind, if_neg b1, if_neg b2, subO, pure, Option.map_some, Option.getD_some]
    rw [Real.sqrt_div a1, Real.sqrt_div a2, ← sub_div, div_pow, Real.sq_sqrt hw.le]
  rw [sum_congr rfl this, ← sum_div]
  congr 1
  unfold hell
  rw [Real.sqrt_div' _ hw.le, Real.sqrt_div' _ (by norm_num : (0 : ℝ) ≤ 2)]
  have h1 : Real.sqrt w ≠ 0 := (Real.sqrt_pos.2 hw).ne'
  have h2 : Real.sqrt 2 ≠ 0 := (Real.sqrt_pos.2 (by norm_num)).ne'
  have h3 : w = Real.sqrt w * Real.sqrt w := (Real.mul_self_sqrt hw.le).symm
  field_simp
  rw [Real.sq_sqrt hw.le, mul_comm]

private theorem shares_sum (e : Arr1 ℝ) (hs : StrictEdges e) (hn : 2 ≤ e.n) (x : List ℝ)
    (hx : ∃ t ∈ x, e.get 0 ≤ t ∧ t ≤ e.get (e.n - 1)) : ∑ k ∈ range (e.n - 1), share e x k = 1 := by
  obtain ⟨d, hd, hsum⟩ := histDensity_spec hs hn x hx
  have hv := histDensity_value hs hn x hx
  rw [← hsum]
  apply sum_congr rfl
  intro k hk
  rw [mem_range] at hk
  have := (hd k hk).1.symm.trans (hv k hk)
  have hw : 0 < e.get (k + 1) - e.get k := sub_pos.2 (hs k (k + 1) (by omega) (by omega))
  rw [Option.some.inj this]
  field_simp

private theorem hell_facts (n : ℕ) (f g : ℕ → ℝ) (hf : ∀ k, 0 ≤ f k) (hg : ∀ k, 0 ≤ g k) (sf : ∑ k ∈ range n, f k = 1)
    (sg : ∑ k ∈ range n, g k = 1) : 0 ≤ hell n f g ∧ hell n f g ≤ 1 ∧ (hell n f g = 0 ↔ ∀ k < n, f k = g k) := by
  refine ⟨Real.sqrt_nonneg _, ?_, ?_⟩
  · unfold hell
    rw [← Real.sqrt_one]
    apply Real.sqrt_le_sqrt
    rw [div_le_one (by norm_num)]
    calc ∑ k ∈ range n, (Real.sqrt (f k) - Real.sqrt (g k)) ^ 2
        ≤ ∑ k ∈ range n, (f k + g k) := by
          apply sum_le_sum
          intro k _
          have h1 := Real.sq_sqrt (hf k)
          have h2 := Real.sq_sqrt (hg k)
          have h3 := Real.sqrt_nonneg (f k)
          have h4 := Real.sqrt_nonneg (g k)
          nlinarith [mul_nonneg h3 h4]
      _ = 2 := by rw [sum_add_distrib, sf, sg]; norm_num
  · have hnn : ∀ k ∈ range n, 0 ≤ (Real.sqrt (f k) - Real.sqrt (g k)) ^ 2 := fun k _ => sq_nonneg _
    have hs := sum_nonneg hnn
    unfold hell
    rw [Real.sqrt_eq_zero (by positivity), div_eq_zero_iff, or_iff_left (by norm_num), sum_eq_zero_iff_of_nonneg hnn]
    constructor
    · intro h k hk
      have := h k (mem_range.2 hk)
      rw [sq_eq_zero_iff, sub_eq_zero] at this
      exact (Real.sqrt_inj (hf k) (hg k)).1 this
    · intro h k hk
      rw [h k (mem_range.1 hk), sub_self]; norm_num

private theorem count_ok (vals : List (Option ℝ)) (k : ℕ) (hk : 0 < k) : ∃ r, momentHist vals (.count k) = .ok r := by
  have : ∃ e, histEdges k (validVals vals) = .ok e := by
    unfold histEdges
    rw [if_neg (by omega)]
    split
    · split_ifs
      · exact ⟨_, rfl⟩
      · exact ⟨_, rfl⟩
    · exact ⟨_, rfl⟩
  obtain ⟨e, he⟩ := this
  unfold momentHist
  simp only [he, bind, Except.bind, pure, Except.pure]
  exact ⟨_, rfl⟩

private theorem makeHists_ok (o : SMoments) (j : ℕ) (hj : 0 < j) (ho : o.nbins = some j) (sb kb : Arr1 ℝ) :
    ∃ m v, o.makeHists none none (some (.edges sb)) (some (.edges kb)) = .ok { o with hists := some ⟨m, v,
      (binCentres sb, histDensity sb (validVals o.maps.skewness)), (binCentres kb, histDensity kb (validVals o.maps.kurtosis))⟩ } := by
  obtain ⟨m, hm⟩ := count_ok o.maps.mean j hj
  obtain ⟨v, hv⟩ := count_ok o.maps.variance j hj
  refine ⟨m, v, ?_⟩
  unfold SMoments.makeHists SMoments.makeHists.momHist momBins
  rw [ho]
  simp only [bind, Except.bind, pure, Except.pure, hm, hv]
  rfl

namespace Spec

/-- What one of the two distances should be compared with: `d` is the Hellinger distance of the shares of the numbers of both lists in `n`
common bins of equal width from the smallest to the largest of them, times the square root of the width of the bins. -/
def IsBinnedDistance (n : ℕ) (x y : List ℝ) (d : ℝ) : Prop :=
  ∃ e, JointEdges x y n e ∧ d = Real.sqrt (e.get 1 - e.get 0) * hell n (share e x) (share e y) ∧
    ∑ k ∈ range n, share e x k = 1 ∧ ∑ k ∈ range n, share e y k = 1 ∧ 0 < e.get 1 - e.get 0

end Spec

/-- **C89 (value).** For maps that can be compared and at least three edges: `distance_metric` completes; the skewness distance and the
kurtosis distance are the Hellinger distances of the shares of the map values in common bins of equal width, times the square root of the
bin width.  Missing: the number of bins is one less than `nbins` (`C89_bins_violated`), the factor is not 1 (`C89_width_violated`). -/
theorem C89_value_partial (d : MomDist) (nbins : Option ℕ) (hn : 3 ≤ nbins.getD d.nbins) (j1 j2 : ℕ) (h1 : d.m1.nbins = some j1)
    (h2 : d.m2.nbins = some j2) (hj1 : 0 < j1) (hj2 : 0 < j2)
    (hs : Comparable d.m1.maps.skewness d.m2.maps.skewness) (hk : Comparable d.m1.maps.kurtosis d.m2.maps.kurtosis) :
    ∃ r s k, d.metric nbins = .ok r ∧ r.skewness = some s ∧ r.kurtosis = some k ∧
      IsBinnedDistance (nbins.getD d.nbins - 1) (validVals d.m1.maps.skewness) (validVals d.m2.maps.skewness) s ∧
      IsBinnedDistance (nbins.getD d.nbins - 1) (validVals d.m1.maps.kurtosis) (validVals d.m2.maps.kurtosis) k := by
  set n := nbins.getD d.nbins with hnd
  obtain ⟨es, ws, hes, jes, ses, hws, wes, xs1, xs2⟩ := common_edges hs n (by omega)
  obtain ⟨ek, wk, hek, jek, sek, hwk, wek, xk1, xk2⟩ := common_edges hk n (by omega)
  obtain ⟨⟨a1, ha1⟩, ⟨a2, ha2⟩, -⟩ := hs
  obtain ⟨⟨b1, hb1⟩, ⟨b2, hb2⟩, -⟩ := hk
  have esn : es.n = n := by rw [jes.1]; omega
  have ekn : ek.n = n := by rw [jek.1]; omega
  have ps1 : ∃ t ∈ validVals d.m1.maps.skewness, es.get 0 ≤ t ∧ t ≤ es.get (es.n - 1) := ⟨a1, mem_validVals.2 ha1, xs1 _ (mem_validVals.2 ha1)⟩
  have ps2 : ∃ t ∈ validVals d.m2.maps.skewness, es.get 0 ≤ t ∧ t ≤ es.get (es.n - 1) := ⟨a2, mem_validVals.2 ha2, xs2 _ (mem_validVals.2 ha2)⟩
  have pk1 : ∃ t ∈ validVals d.m1.maps.kurtosis, ek.get 0 ≤ t ∧ t ≤ ek.get (ek.n - 1) := ⟨b1, mem_validVals.2 hb1, xk1 _ (mem_validVals.2 hb1)⟩
  have pk2 : ∃ t ∈ validVals d.m2.maps.kurtosis, ek.get 0 ≤ t ∧ t ≤ ek.get (ek.n - 1) := ⟨b2, mem_validVals.2 hb2, xk2 _ (mem_validVals.2 hb2)⟩
  have hS := hell_density es ses (by omega) ws hws wes _ _ ps1 ps2
  have hK := hell_density ek sek (by omega) wk hwk wek _ _ pk1 pk2
  obtain ⟨m1, v1, hm1⟩ := makeHists_ok d.m1 j1 hj1 h1 es ek
  obtain ⟨m2, v2, hm2⟩ := makeHists_ok d.m2 j2 hj2 h2 es ek
  have step : ∀ e : Arr1 ℝ, e.n = n → ∀ w, (∀ k, k + 1 < e.n → e.get (k + 1) - e.get k = w) → firstStep (binCentres e) = .ok w := by
    intro e hen w hw
    unfold firstStep binCentres
    simp only
    rw [if_neg (by omega)]
    congr 1
    have a := hw 0 (by omega)
    have b := hw 1 (by omega)
    norm_num at a b ⊢
    linarith
  have s1 := step es esn ws wes
  have s2 := step ek ekn wk wek
  have w1 : es.get 1 - es.get 0 = ws := wes 0 (by omega)
  have w2 : ek.get 1 - ek.get 0 = wk := wek 0 (by omega)
  have e1 : es.n - 1 = n - 1 := by omega
  have e2 : ek.n - 1 = n - 1 := by omega
  refine ⟨{ d with
    m1 := { d.m1 with hists := some ⟨m1, v1, (binCentres es, histDensity es (validVals d.m1.maps.skewness)),
      (binCentres ek, histDensity ek (validVals d.m1.maps.kurtosis))⟩ }
    m2 := { d.m2 with hists := some ⟨m2, v2, (binCentres es, histDensity es (validVals d.m2.maps.skewness)),
      (binCentres ek, histDensity ek (validVals d.m2.maps.kurtosis))⟩ }
    kurtosis := some (Real.sqrt wk * hell (ek.n - 1) (share ek (validVals d.m1.maps.kurtosis)) (share ek (validVals d.m2.maps.kurtosis)))
    skewness := some (Real.sqrt ws * hell (es.n - 1) (share es (validVals d.m1.maps.skewness)) (share es (validVals d.m2.maps.skewness))) },
    _, _, ?_, rfl, rfl, ⟨es, jes, ?_, ?_, ?_, ?_⟩, ⟨ek, jek, ?_, ?_, ?_, ?_⟩⟩
  · unfold MomDist.metric MomDist.commonHists
    simp only [← hnd, hes, hek, hm1, hm2, bind, Except.bind, pure, Except.pure, s1, s2, hS, hK]
  · rw [w1, e1]
  · have := shares_sum es ses (by omega) _ ps1; rwa [e1] at this
  · have := shares_sum es ses (by omega) _ ps2; rwa [e1] at this
  · rw [w1]; exact hws
  · rw [w2, e2]
  · have := shares_sum ek sek (by omega) _ pk1; rwa [e2] at this
  · have := shares_sum ek sek (by omega) _ pk2; rwa [e2] at this
  · rw [w2]; exact hwk


/-- What such a distance tells: it is between 0 and the square root of the bin width, and 0 exactly when the two images have the
same share of their values in every bin. -/
theorem C89_bounds (n : ℕ) (x y : List ℝ) (d : ℝ) (h : IsBinnedDistance n x y d) :
    ∃ e, JointEdges x y n e ∧ 0 ≤ d ∧ d ≤ Real.sqrt (e.get 1 - e.get 0) ∧ (d = 0 ↔ ∀ k < n, share e x k = share e y k) := by
  obtain ⟨e, je, hd, sx, sy, hw⟩ := h
  obtain ⟨a, b, c⟩ := hell_facts n _ _ (share_nn' e x) (share_nn' e y) sx sy
  have hs : 0 < Real.sqrt (e.get 1 - e.get 0) := Real.sqrt_pos.2 hw
  refine ⟨e, je, ?_, ?_, ?_⟩
  · rw [hd]; exact mul_nonneg hs.le a
  · rw [hd]; nlinarith
  · rw [hd, mul_eq_zero, or_iff_right hs.ne', c]

private theorem binned_swap {n : ℕ} {x y : List ℝ} {d : ℝ} (h : IsBinnedDistance n x y d) : IsBinnedDistance n y x d := by
  obtain ⟨e, ⟨en, lo, hi, hlo, hhi, hk⟩, hd, sx, sy, hw⟩ := h
  have hset : {v | v ∈ x ∨ v ∈ y} = {v | v ∈ y ∨ v ∈ x} := Set.ext fun v => or_comm
  rw [hset] at hlo hhi
  exact ⟨e, ⟨en, lo, hi, hlo, hhi, hk⟩, by rw [hd, hell_swap], sy, sx, hw⟩

private theorem binned_unique {n : ℕ} (hn : 1 ≤ n) {x y x' y' : List ℝ} {d d' : ℝ} (hx : x.Perm x') (hy : y.Perm y')
    (h : IsBinnedDistance n x y d) (h' : IsBinnedDistance n x' y' d') : d' = d := by
  obtain ⟨e, je, hd, -⟩ := h
  obtain ⟨e', je', hd', -⟩ := h'
  obtain ⟨an, ag⟩ := edges_agree je je' (fun v => by rw [hx.mem_iff, hy.mem_iff])
  have en : e.n = n + 1 := je.1
  rw [hd, hd', ag 0 (by omega), ag 1 (by omega)]
  congr 1
  exact hell_agree (fun k hk => share_agree an ag (by omega) hx k (by omega))
    (fun k hk => share_agree an ag (by omega) hy k (by omega))

private theorem comparable_swap {x y : List (Option ℝ)} (h : Comparable x y) : Comparable y x := by
  obtain ⟨a, b, v, w, hv, hw, hvw⟩ := h
  exact ⟨b, a, v, w, hv.symm, hw.symm, hvw⟩

/-- **C89 (symmetry).** Exchanging the images leaves both distances. -/
theorem C89_symmetric (d : MomDist) (nbins : Option ℕ) (hn : 3 ≤ nbins.getD d.nbins) (j1 j2 : ℕ) (h1 : d.m1.nbins = some j1)
    (h2 : d.m2.nbins = some j2) (hj1 : 0 < j1) (hj2 : 0 < j2)
    (hs : Comparable d.m1.maps.skewness d.m2.maps.skewness) (hk : Comparable d.m1.maps.kurtosis d.m2.maps.kurtosis) :
    ∃ r r' s k, d.metric nbins = .ok r ∧ MomDist.metric { d with m1 := d.m2, m2 := d.m1 } nbins = .ok r' ∧
      r.skewness = some s ∧ r'.skewness = some s ∧ r.kurtosis = some k ∧ r'.kurtosis = some k := by
  obtain ⟨r, s, k, hr, hrs, hrk, bs, bk⟩ := C89_value_partial d nbins hn j1 j2 h1 h2 hj1 hj2 hs hk
  obtain ⟨r', s', k', hr', hrs', hrk', bs', bk'⟩ := C89_value_partial { d with m1 := d.m2, m2 := d.m1 } nbins hn j2 j1 h2 h1 hj2 hj1
    (comparable_swap hs) (comparable_swap hk)
  have es := binned_unique (by omega) (List.Perm.refl _) (List.Perm.refl _) (binned_swap bs) bs'
  have ek := binned_unique (by omega) (List.Perm.refl _) (List.Perm.refl _) (binned_swap bk) bk'
  exact ⟨r, r', s, k, hr, hr', hrs, by rw [hrs', es], hrk, by rw [hrk', ek]⟩

/-- **C89 (rearrangement).** The distances depend on the values of the skewness and kurtosis maps only, not on where in the map they
are, nor on the mean and variance maps, nor on the bins of the objects. -/
theorem C89_rearranged (d d' : MomDist) (nbins : Option ℕ) (hb : d'.nbins = d.nbins) (hn : 3 ≤ nbins.getD d.nbins) (j1 j2 j1' j2' : ℕ)
    (h1 : d.m1.nbins = some j1) (h2 : d.m2.nbins = some j2) (h1' : d'.m1.nbins = some j1') (h2' : d'.m2.nbins = some j2')
    (hj1 : 0 < j1) (hj2 : 0 < j2) (hj1' : 0 < j1') (hj2' : 0 < j2')
    (hs : Comparable d.m1.maps.skewness d.m2.maps.skewness) (hk : Comparable d.m1.maps.kurtosis d.m2.maps.kurtosis)
    (p1 : d.m1.maps.skewness.Perm d'.m1.maps.skewness) (p2 : d.m2.maps.skewness.Perm d'.m2.maps.skewness)
    (q1 : d.m1.maps.kurtosis.Perm d'.m1.maps.kurtosis) (q2 : d.m2.maps.kurtosis.Perm d'.m2.maps.kurtosis) :
    ∃ r r' s k, d.metric nbins = .ok r ∧ d'.metric nbins = .ok r' ∧
      r.skewness = some s ∧ r'.skewness = some s ∧ r.kurtosis = some k ∧ r'.kurtosis = some k := by
  have tr : ∀ {x y x' y' : List (Option ℝ)}, x.Perm x' → y.Perm y' → Comparable x y → Comparable x' y' := by
    intro x y x' y' px py h
    obtain ⟨⟨a, ha⟩, ⟨b, hb⟩, v, w, hv, hw, hvw⟩ := h
    have : joint x y = joint x' y' := by
      ext t
      show (some t ∈ x ∨ some t ∈ y) ↔ (some t ∈ x' ∨ some t ∈ y')
      rw [px.mem_iff, py.mem_iff]
    exact ⟨⟨a, px.mem_iff.1 ha⟩, ⟨b, py.mem_iff.1 hb⟩, v, w, this ▸ hv, this ▸ hw, hvw⟩
  obtain ⟨r, s, k, hr, hrs, hrk, bs, bk⟩ := C89_value_partial d nbins hn j1 j2 h1 h2 hj1 hj2 hs hk
  obtain ⟨r', s', k', hr', hrs', hrk', bs', bk'⟩ := C89_value_partial d' nbins (by rw [hb]; exact hn) j1' j2' h1' h2' hj1' hj2'
    (tr p1 p2 hs) (tr q1 q2 hk)
  rw [hb] at bs' bk'
  have vp : ∀ {x x' : List (Option ℝ)}, x.Perm x' → (validVals x).Perm (validVals x') := fun h => h.filterMap id
  have es := binned_unique (by omega) (vp p1) (vp p2) bs bs'
  have ek := binned_unique (by omega) (vp q1) (vp q2) bk bk'
  exact ⟨r, r', s, k, hr, hr', hrs, by rw [hrs', es], hrk, by rw [hrk', ek]⟩

/-- **C89 (identity).** Two images whose maps have the same values are at distance 0. -/
theorem C89_same (d : MomDist) (nbins : Option ℕ) (hn : 3 ≤ nbins.getD d.nbins) (j1 j2 : ℕ) (h1 : d.m1.nbins = some j1)
    (h2 : d.m2.nbins = some j2) (hj1 : 0 < j1) (hj2 : 0 < j2)
    (hs : Comparable d.m1.maps.skewness d.m2.maps.skewness) (hk : Comparable d.m1.maps.kurtosis d.m2.maps.kurtosis)
    (es : d.m2.maps.skewness = d.m1.maps.skewness) (ek : d.m2.maps.kurtosis = d.m1.maps.kurtosis) :
    ∃ r, d.metric nbins = .ok r ∧ r.skewness = some 0 ∧ r.kurtosis = some 0 := by
  obtain ⟨r, s, k, hr, hrs, hrk, bs, bk⟩ := C89_value_partial d nbins hn j1 j2 h1 h2 hj1 hj2 hs hk
  rw [es] at bs
  rw [ek] at bk
  obtain ⟨e, -, -, -, a⟩ := C89_bounds _ _ _ _ bs
  obtain ⟨e', -, -, -, b⟩ := C89_bounds _ _ _ _ bk
  exact ⟨r, hr, by rw [hrs, a.2 fun _ _ => rfl], by rw [hrk, b.2 fun _ _ => rfl]⟩

/-! ### Intensity scale and offset -/

private theorem nansum_scale {α : Type*} (l : List α) (f g : α → Option ℝ) (c : ℝ) (h : ∀ p ∈ l, g p = (f p).map (c * ·)) :
    nansum (l.map g) = c * nansum (l.map f) := by
  have : l.map g = (l.map f).map (Option.map (c * ·)) := by
    rw [List.map_map]
    exact List.map_congr_left h
  unfold nansum
  rw [this, validVals_map, List.sum_map_mul_left]
  simp

private theorem div_scale (x : ℝ) (w : ℝ) (c : ℝ) : divO (some (c * x)) (some w) = (divO (some x) (some w)).map (c * ·) := by
  simp only [divO, bind, Option.bind]
  split_ifs
  · rfl
  · simp [mul_div_assoc]

/-- Pixels multiplied by `a > 0`: mean and variance scale, skewness and kurtosis stay, whatever is missing. -/
private theorem moments_scale (px : List (Option ℝ × Option ℝ)) (a : ℝ) (ha : 0 < a) :
    computeMoments (px.map fun p => (p.1.map (a * ·), p.2)) =
      ⟨(computeMoments px).mean.map (a * ·), (computeMoments px).variance.map (a ^ 2 * ·), (computeMoments px).skewness,
        (computeMoments px).kurtosis⟩ := by
  unfold computeMoments
  simp only [List.map_map, Function.comp_def]
  set W := nansum (px.map fun p => p.2) with hW
  have hm : divO (some (nansum (px.map fun p => mulO (p.1.map (a * ·)) p.2))) (some W) =
      (divO (some (nansum (px.map fun p => mulO p.1 p.2))) (some W)).map (a * ·) := by
    rw [nansum_scale px (fun p => mulO p.1 p.2) _ a, div_scale]
    rintro ⟨x, w⟩ -
    cases x <;> cases w <;> simp [mulO, mul_assoc]
  rw [hm]
  set M := divO (some (nansum (px.map fun p => mulO p.1 p.2))) (some W) with hM
  have hsub : ∀ x : Option ℝ, subO (x.map (a * ·)) (M.map (a * ·)) = (subO x M).map (a * ·) := by
    intro x
    cases x <;> cases M <;> simp [subO, mul_sub]
  simp only [hsub]
  have hv : divO (some (nansum (px.map fun p => mulO p.2 (((subO p.1 M).map (a * ·)).map (· ^ 2))))) (some W) =
      (divO (some (nansum (px.map fun p => mulO p.2 ((subO p.1 M).map (· ^ 2))))) (some W)).map (a ^ 2 * ·) := by
    rw [nansum_scale px (fun p => mulO p.2 ((subO p.1 M).map (· ^ 2))) _ (a ^ 2), div_scale]
    rintro ⟨x, w⟩ -
    cases hx : subO x M <;> cases w <;> simp [mulO, hx, mul_pow]
    ring
  rw [hv]
  set V := divO (some (nansum (px.map fun p => mulO p.2 ((subO p.1 M).map (· ^ 2))))) (some W) with hV
  have hstd : sqrtO (V.map (a ^ 2 * ·)) = (sqrtO V).map (a * ·) := by
    cases V with
    | none => rfl
    | some v =>
      simp only [sqrtO, Option.map_some, bind, Option.bind]
      by_cases hneg : v < 0
      · rw [if_pos hneg, if_pos (by nlinarith [pow_pos ha 2])]; rfl
      · rw [if_neg hneg, if_neg (not_lt.2 (mul_nonneg (sq_nonneg a) (not_lt.1 hneg)))]
        rw [Real.sqrt_mul (sq_nonneg a), Real.sqrt_sq ha.le]
        rfl
  have hz : ∀ t s : Option ℝ, divO (t.map (a * ·)) (s.map (a * ·)) = divO t s := by
    intro t s
    cases t <;> cases s <;> simp only [divO, Option.map_some, Option.map_none, bind, Option.bind]
    rename_i t s
    by_cases h : s = 0
    · rw [if_pos h, if_pos (by rw [h, mul_zero])]
    · rw [if_neg h, if_neg (mul_ne_zero ha.ne' h), mul_div_mul_left _ _ ha.ne']
  rw [hstd]
  simp only [hz]

/-- Pixels with `b` added, no weight on missing pixels: the mean moves, variance, skewness and kurtosis stay. -/
private theorem moments_shift (px : List (Option ℝ × Option ℝ)) (hm : WeightsMasked px) (b : ℝ) :
    computeMoments (px.map fun p => (p.1.map (· + b), p.2)) =
      ⟨(computeMoments px).mean.map (· + b), (computeMoments px).variance, (computeMoments px).skewness,
        (computeMoments px).kurtosis⟩ := by
  unfold computeMoments
  simp only [List.map_map, Function.comp_def]
  set W := nansum (px.map fun p => p.2) with hW
  have hsum : nansum (px.map fun p => mulO (p.1.map (· + b)) p.2) = nansum (px.map fun p => mulO p.1 p.2) + b * W := by
    rw [hW]
    clear hW W
    unfold nansum validVals
    induction px with
    | nil => simp
    | cons p ps ih =>
      have ih := ih fun q hq => hm q (List.mem_cons_of_mem _ hq)
      have h0 := hm p List.mem_cons_self
      obtain ⟨x, w⟩ := p
      cases x with
      | none =>
        have : w = none := h0 rfl
        subst this
        simpa [mulO] using ih
      | some x =>
        cases w with
        | none => simpa [mulO] using ih
        | some w =>
          simp [mulO] at ih ⊢
          rw [ih]; ring
  have hmean : divO (some (nansum (px.map fun p => mulO (p.1.map (· + b)) p.2))) (some W) =
      (divO (some (nansum (px.map fun p => mulO p.1 p.2))) (some W)).map (· + b) := by
    rw [hsum]
    simp only [divO, bind, Option.bind]
    split_ifs with h
    · rfl
    · simp only [Option.map_some, Option.some.injEq]; field_simp
  rw [hmean]
  set M := divO (some (nansum (px.map fun p => mulO p.1 p.2))) (some W) with hM
  have hsub : ∀ x : Option ℝ, subO (x.map (· + b)) (M.map (· + b)) = subO x M := by
    intro x
    cases x <;> cases M <;> simp [subO]
  simp only [hsub]

private theorem cont_map (periodic : Bool) (img : Arr2 (Option ℝ)) (f : ℝ → ℝ) (i j : ℤ) :
    contExt periodic (img.map (Option.map f)) i j = (contExt periodic img i j).map f := by
  cases periodic with
  | true => rfl
  | false =>
    simp only [contExt, nanExt, Bool.false_eq_true, if_false, Arr2.map]
    split_ifs <;> rfl

private theorem count_map' (periodic : Bool) (img : Arr2 (Option ℝ)) (f : ℝ → ℝ) (r : ℕ) (i j : ℤ) :
    squareCount (contExt periodic (img.map (Option.map f))) r i j = squareCount (contExt periodic img) r i j := by
  unfold squareCount
  congr 1
  apply filter_congr
  intro p _
  rw [cont_map, Option.isSome_map]

private theorem circle_map (periodic : Bool) (img wgt : Arr2 (Option ℝ)) (f : ℝ → ℝ) (r : ℕ) (i j : ℤ) :
    circlePixels (contExt periodic (img.map (Option.map f))) (contExt periodic wgt) r i j =
      (circlePixels (contExt periodic img) (contExt periodic wgt) r i j).map (fun p => (p.1.map f, p.2)) := by
  unfold circlePixels
  rw [List.map_flatMap]
  apply List.flatMap_congr
  intro u _
  rw [List.map_map]
  apply List.map_congr_left
  intro v _
  simp only [Function.comp_apply]
  split_ifs
  · simp only [cont_map]
  · rfl

namespace Spec

/-- The same entries. -/
def SameMap (a b : Arr2 (Option ℝ)) : Prop := a.n = b.n ∧ a.m = b.m ∧ ∀ i < a.n, ∀ j < a.m, a.get i j = b.get i j

end Spec

private theorem masked_circle (periodic : Bool) (img wgt : Arr2 (Option ℝ)) (hw : wgt.n = img.n ∧ wgt.m = img.m)
    (hn : 0 < img.n) (hm' : 0 < img.m)
    (hm : ∀ i < img.n, ∀ j < img.m, img.get i j = none → wgt.get i j = none) (r : ℕ) (i j : ℤ) :
    WeightsMasked (circlePixels (contExt periodic img) (contExt periodic wgt) r i j) := by
  have key : ∀ a b : ℤ, contExt periodic img a b = none → contExt periodic wgt a b = none := by
    intro a b h
    cases periodic with
    | true =>
      simp only [contExt, if_true, periodicExt] at h ⊢
      rw [hw.1, hw.2]
      have h1 := Int.emod_nonneg a (show (img.n : ℤ) ≠ 0 by omega)
      have h2 := Int.emod_lt_of_pos a (show (0 : ℤ) < img.n by omega)
      have h3 := Int.emod_nonneg b (show (img.m : ℤ) ≠ 0 by omega)
      have h4 := Int.emod_lt_of_pos b (show (0 : ℤ) < img.m by omega)
      exact hm _ (by omega) _ (by omega) h
    | false =>
      simp only [contExt, nanExt, Bool.false_eq_true, if_false] at h ⊢
      rw [hw.1, hw.2]
      split_ifs at h ⊢ with hc
      · exact hm _ (by omega) _ (by omega) h
      · rfl
  intro p hp h0
  unfold circlePixels at hp
  rw [List.mem_flatMap] at hp
  obtain ⟨u, -, hp⟩ := hp
  rw [List.mem_map] at hp
  obtain ⟨v, -, rfl⟩ := hp
  split_ifs at h0 ⊢
  · exact key _ _ h0
  · rfl

/-- **C89 (scale).** Multiplying the image by `a > 0` leaves the skewness and kurtosis maps, for any weights and missing pixels. -/
theorem C89_scale_maps (junkI junkW junkI' junkW' : ℕ → ℕ → Option ℝ) (periodic : Bool) (minFrac rad : ℝ)
    (img wgt : Arr2 (Option ℝ)) (hw : wgt.n = img.n ∧ wgt.m = img.m) (hrad : 0 < rad)
    (hf : 0 < minFrac ∧ minFrac ≤ 1) (a : ℝ) (ha : 0 < a) :
    ∃ res res', spatialDistrib junkI junkW periodic minFrac rad img wgt = .ok res ∧
      spatialDistrib junkI' junkW' periodic minFrac rad (img.map (Option.map (a * ·))) wgt = .ok res' ∧
      SameMap (res.map MomentSet.skewness) (res'.map MomentSet.skewness) ∧
      SameMap (res.map MomentSet.kurtosis) (res'.map MomentSet.kurtosis) ∧
      SameMap (res'.map MomentSet.mean) (res.map fun s => s.mean.map (a * ·)) := by
  obtain ⟨res, h, hn, hm, hv⟩ := C43_maps_partial junkI junkW periodic minFrac rad img wgt hw hrad hf
  obtain ⟨res', h', hn', hm', hv'⟩ := C43_maps_partial junkI' junkW' periodic minFrac rad (img.map (Option.map (a * ·))) wgt hw hrad hf
  have key : ∀ i < img.n, ∀ j < img.m, (res'.get i j).skewness = (res.get i j).skewness ∧
      (res'.get i j).kurtosis = (res.get i j).kurtosis ∧ (res'.get i j).mean = (res.get i j).mean.map (a * ·) := by
    intro i hi j hj
    have e := hv i hi j hj
    have e' := hv' i hi j hj
    simp only at e e'
    rw [count_map', circle_map, moments_scale _ a ha] at e'
    rw [e, e']
    split_ifs
    · exact ⟨rfl, rfl, rfl⟩
    · exact ⟨rfl, rfl, rfl⟩
  have n' : res'.n = res.n := hn'.trans hn.symm
  have m' : res'.m = res.m := hm'.trans hm.symm
  refine ⟨res, res', h, h', ⟨n'.symm, m'.symm, ?_⟩, ⟨n'.symm, m'.symm, ?_⟩, ⟨n', m', ?_⟩⟩
  · intro i hi j hj
    exact (key i (hn ▸ hi) j (hm ▸ hj)).1.symm
  · intro i hi j hj
    exact (key i (hn ▸ hi) j (hm ▸ hj)).2.1.symm
  · intro i hi j hj
    exact (key i (hn' ▸ hi) j (hm' ▸ hj)).2.2

/-- **C89 (offset).** Adding a constant to the image leaves the skewness and kurtosis maps when missing pixels have no weight.  Without
that condition it fails: `C89_offset_violated`. -/
theorem C89_offset_maps_partial (junkI junkW junkI' junkW' : ℕ → ℕ → Option ℝ) (periodic : Bool) (minFrac rad : ℝ)
    (img wgt : Arr2 (Option ℝ)) (hw : wgt.n = img.n ∧ wgt.m = img.m) (hrad : 0 < rad)
    (hf : 0 < minFrac ∧ minFrac ≤ 1) (b : ℝ) (hmask : ∀ i < img.n, ∀ j < img.m, img.get i j = none → wgt.get i j = none) :
    ∃ res res', spatialDistrib junkI junkW periodic minFrac rad img wgt = .ok res ∧
      spatialDistrib junkI' junkW' periodic minFrac rad (img.map (Option.map (· + b))) wgt = .ok res' ∧
      SameMap (res.map MomentSet.skewness) (res'.map MomentSet.skewness) ∧
      SameMap (res.map MomentSet.kurtosis) (res'.map MomentSet.kurtosis) ∧
      SameMap (res'.map MomentSet.mean) (res.map fun s => s.mean.map (· + b)) := by
  obtain ⟨res, h, hn, hm, hv⟩ := C43_maps_partial junkI junkW periodic minFrac rad img wgt hw hrad hf
  obtain ⟨res', h', hn', hm', hv'⟩ := C43_maps_partial junkI' junkW' periodic minFrac rad (img.map (Option.map (· + b))) wgt hw hrad hf
  have key : ∀ i < img.n, ∀ j < img.m, (res'.get i j).skewness = (res.get i j).skewness ∧
      (res'.get i j).kurtosis = (res.get i j).kurtosis ∧ (res'.get i j).mean = (res.get i j).mean.map (· + b) := by
    intro i hi j hj
    have e := hv i hi j hj
    have e' := hv' i hi j hj
    simp only at e e'
    rw [count_map', circle_map, moments_shift _ (masked_circle periodic img wgt hw (by omega) (by omega) hmask _ _ _) b] at e'
    rw [e, e']
    split_ifs
    · exact ⟨rfl, rfl, rfl⟩
    · exact ⟨rfl, rfl, rfl⟩
  have n' : res'.n = res.n := hn'.trans hn.symm
  have m' : res'.m = res.m := hm'.trans hm.symm
  refine ⟨res, res', h, h', ⟨n'.symm, m'.symm, ?_⟩, ⟨n'.symm, m'.symm, ?_⟩, ⟨n', m', ?_⟩⟩
  · intro i hi j hj
    exact (key i (hn ▸ hi) j (hm ▸ hj)).1.symm
  · intro i hi j hj
    exact (key i (hn ▸ hi) j (hm ▸ hj)).2.1.symm
  · intro i hi j hj
    exact (key i (hn' ▸ hi) j (hm' ▸ hj)).2.2

/-- A 3×3 image with two pixels present. -/
def twoPixels (x y : ℝ) : Arr2 (Option ℝ) :=
  ⟨3, 3, fun i j => if i = 0 ∧ j = 0 then some x else if i = 0 ∧ j = 1 then some y else none⟩

private theorem two_circle (x y : ℝ) :
    circlePixels (contExt false (twoPixels x y)) (contExt false ⟨3, 3, fun _ _ => some 1⟩) 2 ((1 : ℕ) : ℤ) ((1 : ℕ) : ℤ) =
      (List.replicate 6 (none, none)) ++ [(some x, some 1), (some y, some 1), (none, some 1), (none, none), (none, none),
        (none, some 1), (none, some 1), (none, some 1), (none, none), (none, none), (none, some 1), (none, some 1), (none, some 1)] ++
      (List.replicate 6 (none, none)) := by
  simp [circlePixels, List.range_succ, InCircle, contExt, nanExt, twoPixels, List.replicate]

private theorem two_kurt (x y M V : ℝ) (hM : M = (x + y) / 9) (hV : V = ((x - M) ^ 2 + (y - M) ^ 2) / 9) (hp : 0 < V) :
    (computeMoments (circlePixels (contExt false (twoPixels x y)) (contExt false ⟨3, 3, fun _ _ => some 1⟩) 2
      ((1 : ℕ) : ℤ) ((1 : ℕ) : ℤ))).kurtosis = some (((x - M) ^ 4 + (y - M) ^ 4) / V ^ 2 / 9 - 3) := by
  rw [two_circle]
  have hW : nansum ([none, none, none, none, none, none, some 1, some 1, some 1, none, none, some 1, some 1, some 1, none, none,
      some 1, some 1, some 1, none, none, none, none, none, none] : List (Option ℝ)) = 9 := by
    norm_num [nansum, validVals, List.filterMap_cons]
  have h4 : ∀ t : ℝ, (t / Real.sqrt V) ^ 4 = t ^ 4 / V ^ 2 := by
    intro t
    rw [div_pow, show Real.sqrt V ^ 4 = (Real.sqrt V ^ 2) ^ 2 by ring, Real.sq_sqrt hp.le]
  have hs : Real.sqrt V ≠ 0 := (Real.sqrt_pos.2 hp).ne'
  have e2 : divO (some (x + y)) (some 9) = some M := by simp [divO, hM]
  have e3 : divO (some ((x - M) ^ 2 + (y - M) ^ 2)) (some 9) = some V := by simp [divO, hV]
  have e4 : sqrtO (some V) = some (Real.sqrt V) := by simp [sqrtO, hp.le]
  have e5 : ∀ t : ℝ, divO (some t) (some (Real.sqrt V)) = some (t / Real.sqrt V) := by intro t; simp [divO, hs]
  simp only [computeMoments, List.replicate, List.map_cons, List.map_nil, List.cons_append, List.nil_append, hW]
  have e6 : divO none (some (Real.sqrt V)) = none := rfl
  have e7 : ∀ t : ℝ, divO (some t) (some 9) = some (t / 9) := by intro t; simp [divO]
  simp [nansum, validVals, mulO, subO, e2, e3, e4, e5, e6, h4]
  rw [e7]
  simp only [Option.bind_some, Option.some.injEq]
  ring

private theorem two_count (x y : ℝ) : squareCount (contExt false (twoPixels x y)) 2 ((1 : ℕ) : ℤ) ((1 : ℕ) : ℤ) = 2 ∧
    squareCount (contExt false ⟨3, 3, fun _ _ => some 1⟩) 2 ((1 : ℕ) : ℤ) ((1 : ℕ) : ℤ) = 9 := by
  have key : ∀ (z : ℤ → ℤ → Option ℝ) (P : ℤ → ℤ → Bool), (∀ a b, (z a b).isSome = P a b) →
      squareCount z 2 ((1 : ℕ) : ℤ) ((1 : ℕ) : ℤ) = ((range 5 ×ˢ range 5).filter (fun p : ℕ × ℕ => P ((p.1 : ℤ) - 1) ((p.2 : ℤ) - 1))).card := by
    intro z P h
    unfold squareCount square
    congr 1
    apply filter_congr
    intro p _
    rw [h]
    congr! 2 <;> push_cast <;> ring
  constructor
  · rw [key _ (fun a b => decide (a = 0 ∧ (b = 0 ∨ b = 1)))]
    · decide
    · intro a b
      simp only [contExt, nanExt, twoPixels, Bool.false_eq_true, if_false]
      split_ifs with h1 h2 h3
      · simp; omega
      · simp; omega
      · simp; omega
      · simp; push_cast at h1; omega
  · rw [key _ (fun a b => decide (0 ≤ a ∧ a < 3 ∧ 0 ≤ b ∧ b < 3))]
    · decide
    · intro a b
      simp only [contExt, nanExt, Bool.false_eq_true, if_false]
      split_ifs with h1
      · simp; push_cast at h1; omega
      · simp; push_cast at h1; omega

/-- With the default weights (all 1) and missing pixels, an offset changes the kurtosis. -/
theorem C89_offset_violated (junkI junkW : ℕ → ℕ → Option ℝ) :
    ∃ res res', spatialDistrib junkI junkW false 0.01 2 (twoPixels 1 2) ⟨3, 3, fun _ _ => some 1⟩ = .ok res ∧
      spatialDistrib junkI junkW false 0.01 2 ((twoPixels 1 2).map (Option.map (· + 1))) ⟨3, 3, fun _ _ => some 1⟩ = .ok res' ∧
      (res.get 1 1).kurtosis ≠ (res'.get 1 1).kurtosis := by
  have h23 : (twoPixels 1 2).map (Option.map (· + 1)) = twoPixels 2 3 := by
    simp only [twoPixels, Arr2.map, Arr2.mk.injEq, true_and]
    funext i j
    split_ifs <;> norm_num
  have ceil2 : ⌈(2 : ℝ)⌉₊ = 2 := by exact_mod_cast Nat.ceil_natCast (R := ℝ) 2
  have val : ∀ x y M V : ℝ, M = (x + y) / 9 → V = ((x - M) ^ 2 + (y - M) ^ 2) / 9 → 0 < V → ∃ res,
      spatialDistrib junkI junkW false 0.01 2 (twoPixels x y) ⟨3, 3, fun _ _ => some 1⟩ = .ok res ∧
        (res.get 1 1).kurtosis = some (((x - M) ^ 4 + (y - M) ^ 4) / V ^ 2 / 9 - 3) := by
    intro x y M V hM hV hp
    obtain ⟨res, h, -, -, hv⟩ := C43_maps_partial junkI junkW false 0.01 2 (twoPixels x y) ⟨3, 3, fun _ _ => some 1⟩ ⟨rfl, rfl⟩
      (by norm_num) (by norm_num)
    have := hv 1 (by simp [twoPixels]) 1 (by simp [twoPixels])
    simp only [ceil2] at this
    rw [(two_count x y).1, (two_count x y).2, if_neg (by norm_num)] at this
    exact ⟨res, h, by rw [this, two_kurt x y M V hM hV hp]⟩
  obtain ⟨res, h, k⟩ := val 1 2 (1 / 3) (29 / 81) (by norm_num) (by norm_num) (by norm_num)
  obtain ⟨res', h', k'⟩ := val 2 3 (5 / 9) (653 / 729) (by norm_num) (by norm_num) (by norm_num)
  refine ⟨res, res', h, by rw [h23]; exact h', ?_⟩
  rw [k, k']
  norm_num


/-! ### Number and width of the bins -/

/-- **C89 (bins), violated.** The comparison uses one bin fewer than `nbins`, and the histograms of the two objects are replaced by the
common ones. -/
theorem C89_bins_violated (d : MomDist) (nbins : Option ℕ) (r : MomDist) (h : d.metric nbins = .ok r) :
    ∃ h1 h2, r.m1.hists = some h1 ∧ r.m2.hists = some h2 ∧ h1.skewness.2.n = nbins.getD d.nbins - 1 ∧
      h2.skewness.2.n = nbins.getD d.nbins - 1 ∧ h1.kurtosis.2.n = nbins.getD d.nbins - 1 ∧
      h2.kurtosis.2.n = nbins.getD d.nbins - 1 := by
  unfold MomDist.metric MomDist.commonHists at h
  simp only [bind, Except.bind, pure, Except.pure] at h
  cases hs : commonHistogramBins 1 1 d.m1.maps.skewness d.m2.maps.skewness { nbins := some (nbins.getD d.nbins) } with
  | error e => simp only [hs] at h; cases h
  | ok sb =>
  cases hk : commonHistogramBins 1 1 d.m1.maps.kurtosis d.m2.maps.kurtosis { nbins := some (nbins.getD d.nbins) } with
  | error e => simp only [hs, hk] at h; cases h
  | ok kb =>
  have inv : ∀ (o o' : SMoments), o.makeHists none none (some (.edges sb)) (some (.edges kb)) = .ok o' →
      ∃ m v, o'.hists = some ⟨m, v, (binCentres sb, histDensity sb (validVals o.maps.skewness)),
        (binCentres kb, histDensity kb (validVals o.maps.kurtosis))⟩ := by
    intro o o' ho
    unfold SMoments.makeHists at ho
    simp only [bind, Except.bind, pure, Except.pure] at ho
    cases hm : SMoments.makeHists.momHist o o.maps.mean none with
    | error e => simp only [hm] at ho; cases ho
    | ok m =>
    cases hv : SMoments.makeHists.momHist o o.maps.variance none with
    | error e => simp only [hm, hv] at ho; cases ho
    | ok v =>
    have es : SMoments.makeHists.momHist o o.maps.skewness (some (.edges sb)) =
        .ok (binCentres sb, histDensity sb (validVals o.maps.skewness)) := rfl
    have ek : SMoments.makeHists.momHist o o.maps.kurtosis (some (.edges kb)) =
        .ok (binCentres kb, histDensity kb (validVals o.maps.kurtosis)) := rfl
    simp only [hm, hv, es, ek, Except.ok.injEq] at ho
    subst ho
    exact ⟨m, v, rfl⟩
  cases h1 : d.m1.makeHists none none (some (.edges sb)) (some (.edges kb)) with
  | error e => simp only [hs, hk, h1] at h; cases h
  | ok o1 =>
  cases h2 : d.m2.makeHists none none (some (.edges sb)) (some (.edges kb)) with
  | error e => simp only [hs, hk, h1, h2] at h; cases h
  | ok o2 =>
  obtain ⟨a1, a2, e1⟩ := inv _ _ h1
  obtain ⟨b1, b2, e2⟩ := inv _ _ h2
  have ns : sb.n - 1 = nbins.getD d.nbins - 1 := (C19_centres _ _ _ sb _ rfl hs).1
  have nk : kb.n - 1 = nbins.getD d.nbins - 1 := (C19_centres _ _ _ kb _ rfl hk).1
  simp only [hs, hk, h1, h2, e1, e2] at h
  split at h
  · cases h
  split at h
  · cases h
  split at h
  · cases h
  split at h
  · cases h
  cases h
  exact ⟨_, _, e1, e2, ns, ns, nk, nk⟩

/-- **C89 (two), violated.** With `nbins=2` no distance is found: IndexError. -/
theorem C89_two_violated (d : MomDist) (nbins : Option ℕ) (hn : nbins.getD d.nbins = 2) (j1 j2 : ℕ) (h1 : d.m1.nbins = some j1)
    (h2 : d.m2.nbins = some j2) (hj1 : 0 < j1) (hj2 : 0 < j2)
    (hs : Comparable d.m1.maps.skewness d.m2.maps.skewness) (hk : Comparable d.m1.maps.kurtosis d.m2.maps.kurtosis) :
    d.metric nbins = .error .indexError := by
  obtain ⟨es, -, hes, -⟩ := common_edges hs 2 (by omega)
  obtain ⟨ek, -, hek, jek, -⟩ := common_edges hk 2 (by omega)
  obtain ⟨m1, v1, hm1⟩ := makeHists_ok d.m1 j1 hj1 h1 es ek
  obtain ⟨m2, v2, hm2⟩ := makeHists_ok d.m2 j2 hj2 h2 es ek
  have hst : firstStep (binCentres ek) = .error .indexError := by
    unfold firstStep binCentres
    simp only
    rw [if_pos (by rw [jek.1]; omega)]
  unfold MomDist.metric MomDist.commonHists
  simp only [hn, hes, hek, hm1, hm2, bind, Except.bind, pure, Except.pure, hst]

/-- Maps with one number each. -/
def oneNumber (x : ℝ) : MomMaps := ⟨[some 0], [some 0], [some x], [some x]⟩

/-- **C89 (width), violated.** The distances are not Hellinger distances, which are at most 1. -/
theorem C89_width_violated : ∃ d r s, MomDist.metric d none = .ok r ∧ r.skewness = some s ∧ 1 < s := by
  have hc : Comparable [some (0 : ℝ)] [some 4] :=
    ⟨⟨0, by simp⟩, ⟨4, by simp⟩, 0, 4, Or.inl (by simp), Or.inr (by simp), by norm_num⟩
  obtain ⟨r, s, k, hr, hrs, -, ⟨e, ⟨en, lo, hi, hlo, hhi, he⟩, hd, -⟩, -⟩ := C89_value_partial
    { nbins := 3, m1 := { nbins := some 1, maps := oneNumber 0 }, m2 := { nbins := some 1, maps := oneNumber 4 } } none (by simp)
    1 1 rfl rfl one_pos one_pos hc hc
  refine ⟨_, r, s, hr, hrs, ?_⟩
  have v1 : validVals (oneNumber 0).skewness = [0] := rfl
  have v2 : validVals (oneNumber 4).skewness = [4] := rfl
  simp only [v1, v2] at hlo hhi hd
  have l0 : lo = 0 := by
    refine hlo.unique ⟨Or.inl (by simp), ?_⟩
    rintro t (ht | ht) <;> simp at ht <;> subst ht <;> norm_num
  have h4 : hi = 4 := by
    refine hhi.unique ⟨Or.inr (by simp), ?_⟩
    rintro t (ht | ht) <;> simp at ht <;> subst ht <;> norm_num
  subst l0 h4
  have e0 := he 0 (by norm_num)
  have e1 := he 1 (by norm_num)
  have e2 := he 2 (by norm_num)
  norm_num at e0 e1 e2
  have hen : e.n = 3 := en
  have s1 : share e [0] 0 = 1 ∧ share e [0] 1 = 0 ∧ share e [4] 0 = 0 ∧ share e [4] 1 = 1 := by
    unfold share InBin
    simp only [hen, e0, e1, e2]
    norm_num [List.countP_cons, e0, e1, e2]
  have hh : hell 2 (share e [0]) (share e [4]) = 1 := by
    unfold hell
    rw [sum_range_succ, sum_range_succ, sum_range_zero, s1.1, s1.2.1, s1.2.2.1, s1.2.2.2]
    norm_num
  rw [hd]
  norm_num
  rw [hh, e0, e1]
  rw [mul_one, Real.lt_sqrt (by norm_num)]
  norm_num

/-! ### Construction -/

/-- **C89 (raw images).** Two raw images whose maps can be computed: both moments objects get the same number of bins, `nbins` if given and otherwise the root of the smaller number of pixels, and the maps for the given radii. -/
theorem C89_raw (nbins : Option ℕ) (r1 r2 : ℝ) (n1 n2 : ℕ) (c1 c2 : ℝ → Py MomMaps) (m1 m2 : MomMaps) (h1 : c1 r1 = .ok m1)
    (h2 : c2 r2 = .ok m2) :
    ∃ d, momDistInit nbins r1 r2 (.raw n1 c1) (.raw n2 c2) = .ok d ∧ d.m1.nbins = some d.nbins ∧ d.m2.nbins = some d.nbins ∧
      d.m1.maps = m1 ∧ d.m2.maps = m2 ∧ (∀ k, nbins = some k → d.nbins = k) ∧
      (nbins = none → d.nbins ^ 2 ≤ min n1 n2 ∧ min n1 n2 < (d.nbins + 1) ^ 2) := by
  refine ⟨⟨momAutoBins nbins (.raw n1 c1) (.raw n2 c2), ⟨some (momAutoBins nbins (.raw n1 c1) (.raw n2 c2)), m1, none⟩,
    ⟨some (momAutoBins nbins (.raw n1 c1) (.raw n2 c2)), m2, none⟩, none, none⟩, ?_, rfl, rfl, rfl, rfl, ?_, ?_⟩
  · unfold momDistInit momFirst momSecond
    simp only [h1, h2, bind, Except.bind, pure, Except.pure]
  · rintro k rfl
    rfl
  · rintro rfl
    simp only [momAutoBins, MomSource.size]
    rw [Real.nat_floor_real_sqrt_eq_nat_sqrt]
    exact ⟨Nat.sqrt_le' _, Nat.lt_succ_sqrt' _⟩

/-- **C89 (objects), violated.** A `StatMoments` given first whose radius is a pixel or more off loses its number of bins when `nbins` is not
given, and then `distance_metric()` raises TypeError — whatever the second image, if the bins can be chosen at all. -/
theorem C89_object_violated (n1 j : ℕ) (own r1 r2 : ℝ) (maps : Option MomMaps) (c1 : ℝ → Py MomMaps) (s2 : MomSource)
    (hfar : 1 ≤ |own - r1|) (d : MomDist) (nbins : Option ℕ)
    (h : momDistInit none r1 r2 (.object n1 (some j) own maps c1) s2 = .ok d) (hn : 2 ≤ nbins.getD d.nbins)
    (hs : Comparable d.m1.maps.skewness d.m2.maps.skewness) (hk : Comparable d.m1.maps.kurtosis d.m2.maps.kurtosis) :
    d.metric nbins = .error .typeError := by
  have hnb : d.m1.nbins = none := by
    unfold momDistInit momFirst at h
    simp only [if_pos hfar, bind, Except.bind, pure, Except.pure] at h
    cases hc : c1 r1 with
    | error e => simp only [hc] at h; cases h
    | ok m =>
      simp only [hc] at h
      split at h
      · cases h
      · cases h; rfl
  obtain ⟨es, -, hes, -⟩ := common_edges hs _ hn
  obtain ⟨ek, -, hek, -⟩ := common_edges hk _ hn
  have hm : d.m1.makeHists none none (some (.edges es)) (some (.edges ek)) = .error .typeError := by
    unfold SMoments.makeHists SMoments.makeHists.momHist momBins
    rw [hnb]
    rfl
  unfold MomDist.metric MomDist.commonHists
  simp only [hes, hek, hm, bind, Except.bind]

/-- The same object given second keeps its number of bins, so there the distance is found (`C89_value_partial`). -/
theorem C89_object_second (n2 j : ℕ) (own r1 r2 : ℝ) (maps : Option MomMaps) (c2 : ℝ → Py MomMaps) (s1 : MomSource)
    (nbins : Option ℕ) (d : MomDist) (h : momDistInit nbins r1 r2 s1 (.object n2 (some j) own maps c2) = .ok d) :
    d.m2.nbins = some j ∧
      (1 ≤ |own - r2| → c2 r2 = .ok d.m2.maps) ∧
      (¬ 1 ≤ |own - r2| → ∀ m, maps = some m → d.m2.maps = m) ∧
      (¬ 1 ≤ |own - r2| → maps = none → c2 own = .ok d.m2.maps) := by
  unfold momDistInit at h
  simp only [bind, Except.bind, pure, Except.pure] at h
  cases h1 : momFirst nbins (momAutoBins nbins s1 (.object n2 (some j) own maps c2)) r1 s1 with
  | error e => simp only [h1] at h; cases h
  | ok o1 =>
  simp only [h1, momSecond] at h
  by_cases hf : 1 ≤ |own - r2|
  · simp only [if_pos hf, bind, Except.bind, pure, Except.pure] at h
    cases hc : c2 r2 with
    | error e => simp only [hc] at h; cases h
    | ok m =>
      simp only [hc] at h
      cases h
      exact ⟨rfl, fun _ => rfl, fun hh => absurd hf hh, fun hh => absurd hf hh⟩
  · simp only [if_neg hf] at h
    cases maps with
    | some m =>
      simp only at h
      cases h
      exact ⟨rfl, fun hh => absurd hh hf, fun _ m' hm => Option.some.inj hm, fun _ hm => by cases hm⟩
    | none =>
      simp only [bind, Except.bind, pure, Except.pure] at h
      cases hc : c2 own with
      | error e => simp only [hc] at h; cases h
      | ok m =>
        simp only [hc] at h
        cases h
        exact ⟨rfl, fun hh => absurd hh hf, fun _ _ hm => (nomatch hm), fun _ _ => rfl⟩

private theorem ravel_same {a b : Arr2 (Option ℝ)} (h : SameMap a b) : a.ravel = b.ravel := by
  obtain ⟨hn, hm, hg⟩ := h
  unfold Arr2.ravel
  rw [← hn, ← hm]
  apply List.flatMap_congr
  intro i hi
  apply List.map_congr_left
  intro j hj
  exact hg i (List.mem_range.1 hi) j (List.mem_range.1 hj)

/-- **C89 (scale of the images).** Multiplying each of two raw images by its own positive number changes neither distance. -/
theorem C89_scale (jI jW kI kW jI' jW' kI' kW' : ℕ → ℕ → Option ℝ) (p1 p2 : Bool) (mf r1 r2 : ℝ) (i1 w1 i2 w2 : Arr2 (Option ℝ))
    (hw1 : w1.n = i1.n ∧ w1.m = i1.m) (hw2 : w2.n = i2.n ∧ w2.m = i2.m) (hf : 0 < mf ∧ mf ≤ 1) (nbins nb : Option ℕ)
    (d : MomDist) (hd : momDistInit nbins r1 r2 (rawImage jI jW p1 mf i1 w1) (rawImage kI kW p2 mf i2 w2) = .ok d)
    (hn0 : 0 < d.nbins) (hn : 3 ≤ nb.getD d.nbins)
    (hs : Comparable d.m1.maps.skewness d.m2.maps.skewness) (hk : Comparable d.m1.maps.kurtosis d.m2.maps.kurtosis)
    (a b : ℝ) (ha : 0 < a) (hb : 0 < b) :
    ∃ d' r r' s k, momDistInit nbins r1 r2 (rawImage jI' jW' p1 mf (i1.map (Option.map (a * ·))) w1)
        (rawImage kI' kW' p2 mf (i2.map (Option.map (b * ·))) w2) = .ok d' ∧
      d.metric nb = .ok r ∧ d'.metric nb = .ok r' ∧ r.skewness = some s ∧ r'.skewness = some s ∧ r.kurtosis = some k ∧
      r'.kurtosis = some k := by
  have rad : ∀ (jI jW : ℕ → ℕ → Option ℝ) (p : Bool) (i w : Arr2 (Option ℝ)) (x : ℝ) (m : MomMaps),
      rawMaps jI jW p mf i w x = .ok m →
      checkRadius (min i.n i.m) (.quantity [x] 1) = .ok () ∧ 0 < x ∧
        ∃ res, spatialDistrib jI jW p mf x i w = .ok res ∧ m = mapsOf res := by
    intro jI jW p i w x m h
    unfold rawMaps at h
    cases hc : checkRadius (min i.n i.m) (.quantity [x] 1) with
    | error e => simp only [hc] at h; cases h
    | ok u =>
      have h2 := ((C43_radius (min i.n i.m) x 1).1.1 hc).1
      cases hsd : spatialDistrib jI jW p mf x i w with
      | error e => simp only [hc, hsd] at h; cases h
      | ok res =>
        simp only [hc, hsd] at h
        cases h
        exact ⟨rfl, by linarith, res, rfl, rfl⟩
  unfold momDistInit at hd
  simp only [rawImage, momFirst, momSecond, momAutoBins, MomSource.size, bind, Except.bind, pure, Except.pure] at hd
  cases e1 : rawMaps jI jW p1 mf i1 w1 r1 with
  | error e => simp only [e1] at hd; cases hd
  | ok m1 =>
  cases e2 : rawMaps kI kW p2 mf i2 w2 r2 with
  | error e => simp only [e1, e2] at hd; cases hd
  | ok m2 =>
  simp only [e1, e2] at hd
  cases hd
  obtain ⟨c1, x1, res1, q1, rfl⟩ := rad _ _ _ _ _ _ _ e1
  obtain ⟨c2, x2, res2, q2, rfl⟩ := rad _ _ _ _ _ _ _ e2
  obtain ⟨y1, y1', g1, g1', ss1, sk1, -⟩ := C89_scale_maps jI jW jI' jW' p1 mf r1 i1 w1 hw1 x1 hf a ha
  obtain ⟨y2, y2', g2, g2', ss2, sk2, -⟩ := C89_scale_maps kI kW kI' kW' p2 mf r2 i2 w2 hw2 x2 hf b hb
  rw [q1] at g1
  rw [q2] at g2
  cases g1
  cases g2
  set N := (match nbins with
    | some k => k
    | none => ⌊Real.sqrt (min (i1.n * i1.m) (i2.n * i2.m) : ℕ)⌋₊) with hN
  obtain ⟨r, r', s, k, hr, hr', h1, h2, h3, h4⟩ := C89_rearranged
    { nbins := N, m1 := { nbins := some N, maps := mapsOf res1 }, m2 := { nbins := some N, maps := mapsOf res2 } }
    { nbins := N, m1 := { nbins := some N, maps := mapsOf y1' }, m2 := { nbins := some N, maps := mapsOf y2' } }
    nb rfl hn N N N N rfl rfl rfl rfl hn0 hn0 hn0 hn0 hs hk
    (List.Perm.of_eq (ravel_same ss1)) (List.Perm.of_eq (ravel_same ss2)) (List.Perm.of_eq (ravel_same sk1))
    (List.Perm.of_eq (ravel_same sk2))
  refine ⟨_, r, r', s, k, ?_, hr, hr', h1, h2, h3, h4⟩
  have c1' : checkRadius (min (i1.map (Option.map (a * ·))).n (i1.map (Option.map (a * ·))).m) (.quantity [r1] 1) = .ok () := c1
  have c2' : checkRadius (min (i2.map (Option.map (b * ·))).n (i2.map (Option.map (b * ·))).m) (.quantity [r2] 1) = .ok () := c2
  have t1 : rawMaps jI' jW' p1 mf (i1.map (Option.map (a * ·))) w1 r1 = .ok (mapsOf y1') := by
    unfold rawMaps; simp only [c1', g1']
  have t2 : rawMaps kI' kW' p2 mf (i2.map (Option.map (b * ·))) w2 r2 = .ok (mapsOf y2') := by
    unfold rawMaps; simp only [c2', g2']
  unfold momDistInit
  simp only [rawImage, momFirst, momSecond, momAutoBins, MomSource.size, t1, t2]
  rfl

/-! ### Non-vacuity -/

example : ∃ d : MomDist, 3 ≤ (none : Option ℕ).getD d.nbins ∧ d.m1.nbins = some 4 ∧ d.m2.nbins = some 4 ∧
    Comparable d.m1.maps.skewness d.m2.maps.skewness ∧ Comparable d.m1.maps.kurtosis d.m2.maps.kurtosis := by
  have hc : Comparable [some (0 : ℝ)] [some 4] :=
    ⟨⟨0, by simp⟩, ⟨4, by simp⟩, 0, 4, Or.inl (by simp), Or.inr (by simp), by norm_num⟩
  exact ⟨{ nbins := 4, m1 := { nbins := some 4, maps := oneNumber 0 }, m2 := { nbins := some 4, maps := oneNumber 4 } },
    by simp, rfl, rfl, hc, hc⟩

example : ∃ d, momDistInit none 5 5 (.object 100 (some 10) 3 none fun _ => .ok (oneNumber 0)) (.raw 100 fun _ => .ok (oneNumber 4)) = .ok d ∧
    2 ≤ (none : Option ℕ).getD d.nbins ∧ Comparable d.m1.maps.skewness d.m2.maps.skewness ∧
    Comparable d.m1.maps.kurtosis d.m2.maps.kurtosis ∧ (1 : ℝ) ≤ |3 - 5| := by
  have hc : Comparable [some (0 : ℝ)] [some 4] :=
    ⟨⟨0, by simp⟩, ⟨4, by simp⟩, 0, 4, Or.inl (by simp), Or.inr (by simp), by norm_num⟩
  have h1 : (1 : ℝ) ≤ |3 - 5| := by norm_num
  refine ⟨⟨⌊Real.sqrt (min 100 100 : ℕ)⌋₊, ⟨none, oneNumber 0, none⟩, ⟨some ⌊Real.sqrt (min 100 100 : ℕ)⌋₊, oneNumber 4, none⟩, none,
    none⟩, ?_, ?_, hc, hc, h1⟩
  · unfold momDistInit momFirst momSecond
    simp only [if_pos h1, bind, Except.bind, pure, Except.pure]
    rfl
  · simp only [Option.getD_none]
    rw [Real.nat_floor_real_sqrt_eq_nat_sqrt, Nat.le_sqrt]
    norm_num

end TS
