import Verif.Model.PdfDistance
import Verif.Props.C16
import Verif.Props.C18
import Verif.Props.C19
import Verif.Props.C24
import Verif.Props.C44

/-! C79 — the distances between two PDFs, from the images to the numbers. -/

namespace TS
open Finset

namespace Spec

/-- Hellinger distance of two discrete distributions. -/
noncomputable def hell (n : ℕ) (f g : ℕ → ℝ) : ℝ :=
  Real.sqrt ((∑ k ∈ range n, (Real.sqrt (f k) - Real.sqrt (g k)) ^ 2) / 2)

end Spec
open Spec

/-- `PDF_Distance` swapped: the two images change places, nothing else. -/
theorem C79_swap (a b : PdfInput) (o : PdfDistOpts) (d : PdfDist) (h : pdfDistInit a b o = .ok d) :
    pdfDistInit b a o = .ok ⟨d.pdf2, d.pdf1, d.bins⟩ := by
  have hc : ∀ x y : List (Option ℝ), ∀ p : BinArgs, ∀ e, commonHistogramBins 1 1 x y p = .ok e →
      commonHistogramBins 1 1 y x p = .ok e := by
    intro x y p e he
    unfold commonHistogramBins at he ⊢
    rw [if_neg (by omega)] at he ⊢
    cases h1 : nanmin x <;> cases h2 : nanmin y <;> cases h3 : nanmax x <;> cases h4 : nanmax y <;>
      simp only [h1, h2, h3, h4] at he ⊢ <;> try (cases he; done)
    rw [← he, min_comm, max_comm, add_comm x.length]
  unfold pdfDistInit at h ⊢
  split_ifs at h ⊢ with hf
  simp only [bind, Except.bind, pure, Except.pure] at h ⊢
  cases h1 : pdfInit a.img a.minVal none a.weights o.norm with
  | error e => rw [h1] at h; cases h
  | ok p1 =>
    cases h2 : pdfInit b.img b.minVal none b.weights o.norm with
    | error e => rw [h1, h2] at h; cases h
    | ok p2 =>
      rw [h1, h2] at h
      simp only at h ⊢
      cases h3 : commonHistogramBins 1 1 p1.data p2.data { nbins := o.nbins, minVal := o.binMin, maxVal := o.binMax } with
      | error e => rw [h3] at h; cases h
      | ok e =>
        rw [h3] at h
        rw [hc _ _ _ _ h3]
        simp only at h ⊢
        cases h4 : runPdf p1 (some (.edges e)) with
        | error e => rw [h4] at h; cases h
        | ok r1 =>
          cases h5 : runPdf p2 (some (.edges e)) with
          | error e => rw [h4, h5] at h; cases h
          | ok r2 =>
            rw [h4, h5] at h
            cases h
            rfl

private theorem hellTerm_comm (a b : Option ℝ) : hellTerm a b = hellTerm b a := by
  unfold hellTerm
  cases sqrtO a <;> cases sqrtO b <;> simp [subO]
  ring

private theorem hellinger_comm (p q : Arr1 (Option ℝ)) (w : ℝ) : hellinger p q w = hellinger q p w := by
  unfold hellinger
  by_cases h : p.n = q.n
  · rw [if_neg (not_not.2 h), if_neg (not_not.2 h.symm), h]
    congr 3
    exact sum_congr rfl (fun i _ => hellTerm_comm _ _)
  · rw [if_pos h, if_pos (Ne.symm h)]

private theorem ks_comm (x y : List (Option ℝ)) : ksStat x y = ksStat y x := by
  have hmax : ∀ (l l' : List ℝ), l.Perm l' → l.foldr max 0 = l'.foldr max 0 := by
    intro l l' h
    exact h.foldr_eq' (fun a _ b _ z => by rw [← max_assoc, max_comm b a, max_assoc]) 0
  unfold ksStat
  simp only [or_comm]
  congr 4
  apply hmax
  have : (fun t => |ecdfAt x t - ecdfAt y t|) = fun t => |ecdfAt y t - ecdfAt x t| := by
    funext t; rw [abs_sub_comm]
  rw [this]
  exact List.perm_append_comm.map _

/-- **C79 (symmetry).** Exchanging the images leaves every distance. -/
theorem C79_symmetric (a b : PdfInput) (o : PdfDistOpts) (d d' : PdfDist) (h : pdfDistInit a b o = .ok d)
    (h' : pdfDistInit b a o = .ok d') (s : String) :
    (pdfDistMetric d none s) = (pdfDistMetric d' none s) ∧ d'.bins = d.bins := by
  rw [C79_swap a b o d h] at h'
  cases h'
  refine ⟨?_, rfl⟩
  have e1 : pdfDistHellinger d = pdfDistHellinger ⟨d.pdf2, d.pdf1, d.bins⟩ := by
    unfold pdfDistHellinger
    cases d.pdf1.pdf <;> cases d.pdf2.pdf <;> try rfl
    exact hellinger_comm _ _ _
  have e2 : pdfDistKs d = pdfDistKs ⟨d.pdf2, d.pdf1, d.bins⟩ := ks_comm _ _
  unfold pdfDistMetric
  rw [e1, e2]

/-- The log-normal distance: difference of the widths over the combined standard error, also symmetric. -/
theorem C79_lognormal (f g : PdfFit) (s t ds dt : ℝ) (rf rg ef eg : List ℝ) (hf : f.params = s :: rf)
    (hg : g.params = t :: rg) (hef : f.errs = ds :: ef) (heg : g.errs = dt :: eg) (hpos : ds ≠ 0 ∨ dt ≠ 0) :
    pdfDistLognormal (some f) (some g) = .ok (some (|s - t| / Real.sqrt (ds ^ 2 + dt ^ 2))) ∧
    pdfDistLognormal (some g) (some f) = .ok (some (|s - t| / Real.sqrt (ds ^ 2 + dt ^ 2))) := by
  have hp : 0 < ds ^ 2 + dt ^ 2 := by
    rcases hpos with h | h
    · have := sq_pos_of_ne_zero h; positivity
    · have := sq_pos_of_ne_zero h; positivity
  have hq : 0 < Real.sqrt (ds ^ 2 + dt ^ 2) := Real.sqrt_pos.2 hp
  unfold pdfDistLognormal absQuot
  simp only [hf, hg, hef, heg]
  refine ⟨?_, ?_⟩
  · rw [if_neg hp.ne', abs_div, abs_of_pos hq]
  · rw [if_neg (by rw [add_comm]; exact hp.ne'), abs_div, add_comm (dt ^ 2), abs_of_pos hq, abs_sub_comm]

/-! ### The value of the Hellinger distance -/

private theorem share_nonneg (e : Arr1 ℝ) (x : List ℝ) (k : ℕ) : 0 ≤ share e x k := by
  unfold share; positivity

private theorem unit_density (e : Arr1 ℝ) (he : StrictEdges e) (hn : 2 ≤ e.n) (w : ℝ) (hw : 0 < w)
    (heq : ∀ k, k + 1 < e.n → e.get (k + 1) - e.get k = w) (x : List ℝ)
    (hne : ∃ t ∈ x, e.get 0 ≤ t ∧ t ≤ e.get (e.n - 1)) :
    (∀ k < e.n - 1, (pdfUnit (histDensity e x)).get k = some (share e x k)) ∧
    ∑ k ∈ range (e.n - 1), share e x k = 1 := by
  obtain ⟨d, hd, hsum⟩ := histDensity_spec he hn x hne
  have hv := histDensity_value he hn x hne
  have hdk : ∀ k < e.n - 1, d k = share e x k / w := by
    intro k hk
    have := (hd k hk).1.symm.trans (hv k hk)
    rw [heq k (by omega)] at this
    exact Option.some.inj this
  have hs1 : ∑ k ∈ range (e.n - 1), share e x k = 1 := by
    rw [← hsum]
    apply sum_congr rfl
    intro k hk
    rw [mem_range] at hk
    rw [hdk k hk, heq k (by omega)]
    field_simp
  refine ⟨?_, hs1⟩
  intro k hk
  unfold pdfUnit
  simp only
  have hrow : rowSum (histDensity e x).get (histDensity e x).n = some (1 / w) := by
    have hcongr : rowSum (histDensity e x).get (e.n - 1) = rowSum (fun k => some (share e x k / w)) (e.n - 1) :=
      rowSum_congr (fun k hk => by rw [(hd k hk).1, hdk k hk])
    show rowSum (histDensity e x).get (e.n - 1) = _
    rw [hcongr, rowSum_some, ← sum_div, hs1]
  rw [hrow, (hd k hk).1, hdk k hk]
  have : w ≠ 0 := hw.ne'
  simp [divO, this]

private theorem hell_shares (e : Arr1 ℝ) (p q : Arr1 (Option ℝ)) (x y : List ℝ) (n : ℕ) (hp : p.n = n) (hq : q.n = n)
    (hpv : ∀ k < n, p.get k = some (share e x k)) (hqv : ∀ k < n, q.get k = some (share e y k)) :
    hellinger p q 1 = .ok (hell n (share e x) (share e y)) := by
  unfold hellinger hell
  rw [if_neg (by rw [hp, hq]; simp), hp]
  have : ∀ k ∈ range n, hellTerm (p.get k) (q.get k) = (Real.sqrt (share e x k) - Real.sqrt (share e y k)) ^ 2 := by
    intro k hk
    rw [mem_range] at hk
    have h1 := share_nonneg e x k
    have h2 := share_nonneg e y k
    simp [hellTerm, hpv k hk, hqv k hk, sqrtO, subO, not_lt.2 h1, not_lt.2 h2]
  rw [sum_congr rfl this]
  congr 1
  rw [Real.sqrt_div' _ (by norm_num)]
  ring

private theorem runPdf_edges (o : PdfObj) (e : Arr1 ℝ) (hs : ∀ i, i + 1 < e.n → e.get i ≤ e.get (i + 1)) :
    ∃ r, runPdf o (some (.edges e)) = .ok r ∧ r.data = o.data ∧ r.pdf = some (histDensity e (validVals o.data)) := by
  refine ⟨⟨o.data, some (.edges (binCentres e)), some (histDensity e (validVals o.data)),
    some ((binCentres e).map (ecdfAt o.data))⟩, ?_, rfl, rfl⟩
  unfold runPdf makePdf npHistogram
  simp only [bind, Except.bind, pure, Except.pure]
  rw [if_neg]
  · rfl
  · rintro ⟨i, hi, hlt⟩
    rw [mem_range] at hi
    exact absurd (hs i (by omega)) (not_le.2 hlt)

private theorem distInit_ok (a b : PdfInput) (o : PdfDistOpts) (hf : pdfFitAllowed o = true) (p1 p2 : PdfObj) (e : Arr1 ℝ)
    (h1 : pdfInit a.img a.minVal none a.weights o.norm = .ok p1)
    (h2 : pdfInit b.img b.minVal none b.weights o.norm = .ok p2)
    (he : commonHistogramBins 1 1 p1.data p2.data { nbins := o.nbins, minVal := o.binMin, maxVal := o.binMax } = .ok e)
    (hs : ∀ i, i + 1 < e.n → e.get i ≤ e.get (i + 1)) :
    ∃ d, pdfDistInit a b o = .ok d ∧ d.bins = e ∧ d.pdf1.data = p1.data ∧ d.pdf2.data = p2.data ∧
      d.pdf1.pdf = some (histDensity e (validVals p1.data)) ∧ d.pdf2.pdf = some (histDensity e (validVals p2.data)) := by
  obtain ⟨r1, g1, d1, q1⟩ := runPdf_edges p1 e hs
  obtain ⟨r2, g2, d2, q2⟩ := runPdf_edges p2 e hs
  refine ⟨⟨r1, r2, e⟩, ?_, rfl, d1, d2, q1, q2⟩
  unfold pdfDistInit
  rw [if_neg (by rw [hf]; simp)]
  simp only [h1, h2, he, g1, g2, bind, Except.bind, pure, Except.pure]

private theorem hell_le_one (n : ℕ) (f g : ℕ → ℝ) (hf : ∀ k, 0 ≤ f k) (hg : ∀ k, 0 ≤ g k) (sf : ∑ k ∈ range n, f k = 1)
    (sg : ∑ k ∈ range n, g k = 1) : 0 ≤ hell n f g ∧ hell n f g ≤ 1 := by
  refine ⟨Real.sqrt_nonneg _, ?_⟩
  unfold hell
  rw [← Real.sqrt_one]
  apply Real.sqrt_le_sqrt
  rw [div_le_one (by norm_num)]
  calc ∑ k ∈ range n, (Real.sqrt (f k) - Real.sqrt (g k)) ^ 2
      ≤ ∑ k ∈ range n, (f k + g k) := by
        apply sum_le_sum
        intro k _
        have h1 := Real.sq_sqrt (hf k)
        have h2 := Real.sq_sqrt (hg k)
        have h3 := Real.sqrt_nonneg (f k)
        have h4 := Real.sqrt_nonneg (g k)
        nlinarith [mul_nonneg h3 h4]
    _ = 2 := by rw [sum_add_distrib, sf, sg]; norm_num

/-- **C79 (value).** Without bin limits and with at least two edges: the Hellinger distance is that of the
shares of the (kept, normalised) values in common, equally wide bins running from the smallest to the
largest value of the two images; it lies in [0, 1].  Missing: a single edge (`C79_one_bin_violated`) and
bin limits that exclude one image (`C79_limits_violated`). -/
theorem C79_value_partial (a b : PdfInput) (o : PdfDistOpts) (hf : pdfFitAllowed o = true) (hmin : o.binMin = none)
    (hmax : o.binMax = none) (p1 p2 : PdfObj) (h1 : pdfInit a.img a.minVal none a.weights o.norm = .ok p1)
    (h2 : pdfInit b.img b.minVal none b.weights o.norm = .ok p2) (v1 v2 lo hi : ℝ) (hv1 : some v1 ∈ p1.data)
    (hv2 : some v2 ∈ p2.data) (hlo : IsLeast (joint p1.data p2.data) lo) (hhi : IsGreatest (joint p1.data p2.data) hi)
    (hlt : lo < hi) (hn : 2 ≤ edgeCount o.nbins p1.data p2.data) :
    ∃ d, pdfDistInit a b o = .ok d ∧ d.bins.n = edgeCount o.nbins p1.data p2.data ∧
      d.bins.get 0 = lo ∧ d.bins.get (d.bins.n - 1) = hi ∧
      (∀ k, k + 1 < d.bins.n → d.bins.get (k + 1) - d.bins.get k = (hi - lo) / ((d.bins.n : ℝ) - 1)) ∧
      pdfDistHellinger d = .ok (hell (d.bins.n - 1) (share d.bins (validVals p1.data)) (share d.bins (validVals p2.data))) ∧
      0 ≤ hell (d.bins.n - 1) (share d.bins (validVals p1.data)) (share d.bins (validVals p2.data)) ∧
      hell (d.bins.n - 1) (share d.bins (validVals p1.data)) (share d.bins (validVals p2.data)) ≤ 1 := by
  obtain ⟨e, he, hen, hs, e0, e1, heq, -⟩ := C19_linear p1.data p2.data o.nbins v1 v2 lo hi hv1 hv2 hlo hhi hlt hn
  obtain ⟨d, hd, hb, -, -, q1, q2⟩ := distInit_ok a b o hf p1 p2 e h1 h2 (by rw [hmin, hmax]; exact he)
    (fun i hi => (hs i (i + 1) (by omega) hi).le)
  have hen2 : 2 ≤ e.n := by rw [hen]; exact hn
  have hw : 0 < (hi - lo) / ((e.n : ℝ) - 1) := by
    have : (2 : ℝ) ≤ e.n := by exact_mod_cast hen2
    exact div_pos (by linarith) (by linarith)
  have in1 : ∃ t ∈ validVals p1.data, e.get 0 ≤ t ∧ t ≤ e.get (e.n - 1) :=
    ⟨v1, mem_validVals.2 hv1, by rw [e0]; exact hlo.2 (Or.inl hv1), by rw [e1]; exact hhi.2 (Or.inl hv1)⟩
  have in2 : ∃ t ∈ validVals p2.data, e.get 0 ≤ t ∧ t ≤ e.get (e.n - 1) :=
    ⟨v2, mem_validVals.2 hv2, by rw [e0]; exact hlo.2 (Or.inr hv2), by rw [e1]; exact hhi.2 (Or.inr hv2)⟩
  obtain ⟨u1, s1⟩ := unit_density e hs hen2 _ hw heq (validVals p1.data) in1
  obtain ⟨u2, s2⟩ := unit_density e hs hen2 _ hw heq (validVals p2.data) in2
  have hb01 := hell_le_one (e.n - 1) (share e (validVals p1.data)) (share e (validVals p2.data)) (share_nonneg e _)
    (share_nonneg e _) s1 s2
  refine ⟨d, hd, ?_, ?_, ?_, ?_, ?_, ?_⟩
  · rw [hb, hen]
  · rw [hb, e0]
  · rw [hb, e1]
  · rw [hb]; exact heq
  · unfold pdfDistHellinger
    rw [q1, q2, hb]
    exact hell_shares e _ _ (validVals p1.data) (validVals p2.data) (e.n - 1) rfl rfl u1 u2
  · rw [hb]; exact hb01

private theorem hellinger_self (p : Arr1 (Option ℝ)) (w : ℝ) : hellinger p p w = .ok 0 := by
  unfold hellinger
  rw [if_neg (by simp)]
  have : ∑ i ∈ range p.n, hellTerm (p.get i) (p.get i) = 0 := by
    apply sum_eq_zero
    intro i _
    unfold hellTerm
    cases sqrtO (p.get i) <;> simp [subO]
  rw [this]; simp

/-- **C79 (identity).** An image compared with itself has Hellinger and KS distance 0. -/
theorem C79_same (a : PdfInput) (o : PdfDistOpts) (d : PdfDist) (h : pdfDistInit a a o = .ok d)
    (hne : d.pdf1.data ≠ []) (hf : none ∉ d.pdf1.data) :
    pdfDistHellinger d = .ok 0 ∧ pdfDistKs d = .ok (some 0) := by
  have heq : d.pdf1 = d.pdf2 := by
    have := C79_swap a a o d h
    rw [h] at this
    have h2 : d = ⟨d.pdf2, d.pdf1, d.bins⟩ := Except.ok.inj this
    exact congrArg PdfDist.pdf1 h2
  have hpdf : ∃ p, d.pdf1.pdf = some p := by
    unfold pdfDistInit at h
    split_ifs at h
    simp only [bind, Except.bind, pure, Except.pure] at h
    split at h
    · cases h
    · split at h
      · cases h
      · split at h
        · cases h
        · split at h
          · cases h
          · rename_i r1 hr1
            split at h
            · cases h
            cases h
            obtain ⟨_, _, p, _, _, hp, _⟩ := C44_ecdf_at_bins _ _ _ hr1
            exact ⟨p, hp⟩
  obtain ⟨p, hp⟩ := hpdf
  refine ⟨?_, ?_⟩
  · unfold pdfDistHellinger
    rw [← heq, hp]
    exact hellinger_self _ _
  · unfold pdfDistKs ksStat
    rw [← heq, if_neg (by simpa using hne), if_neg (by simpa using hf)]
    have : ∀ l : List ℝ, (l.map (fun t => |ecdfAt d.pdf1.data t - ecdfAt d.pdf1.data t|)).foldr max 0 = 0 := by
      intro l
      induction l with
      | nil => rfl
      | cons x t ih => rw [List.map_cons, List.foldr_cons, ih]; simp
    rw [this]

/-! ### The KS distance -/

private theorem foldr_max_spec (l : List ℝ) (h : ∀ x ∈ l, 0 ≤ x) :
    (∀ x ∈ l, x ≤ l.foldr max 0) ∧ (l.foldr max 0 = 0 ∨ l.foldr max 0 ∈ l) := by
  induction l with
  | nil => simp
  | cons x t ih =>
    obtain ⟨i1, i2⟩ := ih (fun y hy => h y (by simp [hy]))
    rw [List.foldr_cons]
    refine ⟨?_, ?_⟩
    · intro y hy
      rcases List.mem_cons.1 hy with rfl | hy
      · exact le_max_left _ _
      · exact (i1 y hy).trans (le_max_right _ _)
    · rcases max_choice x (t.foldr max 0) with hm | hm
      · right; rw [hm]; simp
      · rw [hm]
        rcases i2 with i2 | i2
        · left; exact i2
        · right; exact List.mem_cons_of_mem _ i2

/-- The ECDF does not change between pooled values: any point has the ECDF values of the largest pooled
value below it. -/
private theorem ecdf_step (x y : List (Option ℝ)) (t : ℝ) :
    (ecdfAt x t = 0 ∧ ecdfAt y t = 0) ∨
    ∃ u, (u ∈ validVals x ∨ u ∈ validVals y) ∧ ecdfAt x t = ecdfAt x u ∧ ecdfAt y t = ecdfAt y u := by
  classical
  have hcount : ∀ z : List (Option ℝ), ∀ a b : ℝ, (∀ v, some v ∈ z → (v ≤ a ↔ v ≤ b)) → ecdfAt z a = ecdfAt z b := by
    intro z a b h
    unfold ecdfAt
    congr 3
    apply List.filter_congr
    intro v hv
    cases v with
    | none => rfl
    | some v =>
      simp only [Option.any_some, decide_eq_decide]
      exact h v hv
  set below := (validVals x ++ validVals y).filter (fun v => decide (v ≤ t)) with hbelow
  cases hb : maxO below with
  | none =>
    left
    have hempty : below = [] := by
      cases hB : below with
      | nil => rfl
      | cons z zs => rw [hB] at hb; cases hb
    have hz : ∀ z : List (Option ℝ), (∀ v ∈ validVals z, v ∈ validVals x ++ validVals y) → ecdfAt z t = 0 := by
      intro z hz
      unfold ecdfAt
      rw [List.filter_eq_nil_iff.2]
      · simp
      · intro v hv
        cases v with
        | none => simp
        | some v =>
          simp only [Option.any_some, decide_eq_true_eq]
          intro hle
          have : v ∈ below := List.mem_filter.2 ⟨hz v (mem_validVals.2 hv), by simpa using hle⟩
          rw [hempty] at this
          simp at this
    exact ⟨hz x (fun v hv => List.mem_append_left _ hv), hz y (fun v hv => List.mem_append_right _ hv)⟩
  | some u =>
    right
    obtain ⟨hu, hmax⟩ := maxO_eq_some.1 hb
    rw [hbelow, List.mem_filter] at hu
    obtain ⟨hu1, hu2⟩ := hu
    have hut : u ≤ t := by simpa using hu2
    refine ⟨u, List.mem_append.1 hu1, ?_, ?_⟩
    · apply hcount
      intro v hv
      refine ⟨fun hle => hmax v ?_, fun hle => hle.trans hut⟩
      rw [hbelow, List.mem_filter]
      exact ⟨List.mem_append_left _ (mem_validVals.2 hv), by simpa using hle⟩
    · apply hcount
      intro v hv
      refine ⟨fun hle => hmax v ?_, fun hle => hle.trans hut⟩
      rw [hbelow, List.mem_filter]
      exact ⟨List.mem_append_right _ (mem_validVals.2 hv), by simpa using hle⟩

/-- **C79 (KS).** For data without missing values the KS distance is the largest vertical distance of the
two cumulative distributions over all numbers; it lies in [0, 1] and does not depend on the bins. -/
theorem C79_ks (d : PdfDist) (h1 : d.pdf1.data ≠ []) (h2 : d.pdf2.data ≠ []) (f1 : none ∉ d.pdf1.data)
    (f2 : none ∉ d.pdf2.data) :
    ∃ D, pdfDistKs d = .ok (some D) ∧ 0 ≤ D ∧ D ≤ 1 ∧
      IsGreatest (Set.range (fun t : ℝ => |ecdfAt d.pdf1.data t - ecdfAt d.pdf2.data t|)) D := by
  set x := d.pdf1.data
  set y := d.pdf2.data
  set l := (validVals x ++ validVals y).map (fun t => |ecdfAt x t - ecdfAt y t|) with hl
  obtain ⟨m1, m2⟩ := foldr_max_spec l (by
    intro v hv
    obtain ⟨t, -, rfl⟩ := List.mem_map.1 hv
    exact abs_nonneg _)
  have hb1 := (C44_ecdf x f1 h1).1
  have hb2 := (C44_ecdf y f2 h2).1
  -- below all data both ECDFs vanish
  have hlow : ∃ t : ℝ, ecdfAt x t = 0 ∧ ecdfAt y t = 0 := by
    obtain ⟨v, hv⟩ : ∃ v, v ∈ validVals x := by
      obtain ⟨z, zs, hz⟩ := List.exists_cons_of_ne_nil h1
      cases z with
      | none => exact absurd (by rw [hz]; simp) f1
      | some v => exact ⟨v, mem_validVals.2 (by rw [hz]; simp)⟩
    obtain ⟨m, hm⟩ := exists_minO (v := validVals x ++ validVals y) (by
      intro h0; rw [List.append_eq_nil_iff] at h0; rw [h0.1] at hv; simp at hv)
    obtain ⟨-, hmin⟩ := minO_eq_some.1 hm
    refine ⟨m - 1, (C44_ecdf x f1 h1).2.2.1 _ (fun v hv => ?_), (C44_ecdf y f2 h2).2.2.1 _ (fun v hv => ?_)⟩
    · have := hmin v (List.mem_append_left _ (mem_validVals.2 hv)); linarith
    · have := hmin v (List.mem_append_right _ (mem_validVals.2 hv)); linarith
  have hin : l.foldr max 0 ∈ Set.range (fun t : ℝ => |ecdfAt x t - ecdfAt y t|) := by
    rcases m2 with h0 | hm
    · obtain ⟨t, ht1, ht2⟩ := hlow
      exact ⟨t, by simp only [ht1, ht2]; rw [h0]; simp⟩
    · obtain ⟨t, -, ht⟩ := List.mem_map.1 hm
      exact ⟨t, ht⟩
  have hub : ∀ t, |ecdfAt x t - ecdfAt y t| ≤ l.foldr max 0 := by
    intro t
    rcases ecdf_step x y t with ⟨e1, e2⟩ | ⟨u, hu, e1, e2⟩
    · rw [e1, e2]
      obtain ⟨s, hs⟩ := hin
      rw [← hs]; simp
    · rw [e1, e2]
      exact m1 _ (List.mem_map.2 ⟨u, List.mem_append.2 hu, rfl⟩)
  refine ⟨l.foldr max 0, ?_, ?_, ?_, hin, ?_⟩
  · show ksStat x y = _
    unfold ksStat
    rw [if_neg (by push Not; exact ⟨h1, h2⟩), if_neg (by push Not; exact ⟨f1, f2⟩)]
  · obtain ⟨s, hs⟩ := hin
    rw [← hs]; exact abs_nonneg _
  · obtain ⟨s, hs⟩ := hin
    rw [← hs]
    have := hb1 s
    have := hb2 s
    simp only
    rw [abs_le]; constructor <;> linarith
  · rintro _ ⟨t, rfl⟩
    exact hub t

/-! ### Normalised comparisons -/

private theorem keep_affine (img : List (Option ℝ)) (minVal : Option ℝ) (c b : ℝ) (hc : 0 < c) :
    ∃ k, pdfKeep minVal img none = .ok k ∧
      pdfKeep (minVal.map (fun t => c * t + b)) (img.map (Option.map (fun t => c * t + b))) none =
        .ok (k.map (fun t => c * t + b)) := by
  refine ⟨_, rfl, ?_⟩
  unfold pdfKeep
  simp only
  congr 1
  rw [List.filterMap_map]
  induction img with
  | nil => rfl
  | cons v t ih =>
    have hiff : ∀ x, aboveMin (minVal.map (fun t => c * t + b)) (c * x + b) ↔ aboveMin minVal x := by
      intro x
      unfold aboveMin
      cases minVal with
      | none => simp
      | some m => simp [hc]
    cases v with
    | none => simpa using ih
    | some x =>
      by_cases hx : aboveMin minVal x
      · have hx' := (hiff x).2 hx
        simp only [List.filterMap_cons, Function.comp, Option.map_some, Option.bind_some, if_pos hx, if_pos hx',
          List.map_cons]
        rw [← ih]; rfl
      · have hx' := fun h => hx ((hiff x).1 h)
        simp only [List.filterMap_cons, Function.comp, Option.map_some, Option.bind_some, if_neg hx, if_neg hx']
        rw [← ih]; rfl

/-- **C79 (standardised comparison).** With `normalization_type='standardize'` (no fit) the first image may
be rescaled and offset (with its threshold) without changing any result. -/
theorem C79_standardized (img : List (Option ℝ)) (minVal : Option ℝ) (b : PdfInput) (o : PdfDistOpts)
    (hnorm : o.norm = some "standardize") (c s : ℝ) (hc : 0 < c) (k : List ℝ) (hk : pdfKeep minVal img none = .ok k)
    (u v : ℝ) (hu : u ∈ k) (hv : v ∈ k) (huv : u ≠ v) :
    pdfDistInit ⟨img.map (Option.map (fun t => c * t + s)), minVal.map (fun t => c * t + s), none⟩ b o =
      pdfDistInit ⟨img, minVal, none⟩ b o := by
  obtain ⟨k', hk', hk2⟩ := keep_affine img minVal c s hc
  rw [hk] at hk'
  cases hk'
  have hst : standardize ((k.map (fun t => c * t + s)).map some) = standardize (k.map some) := by
    have e1 : (k.map (fun t => c * t + s)).map some = ((k.map some).map (Option.map (c * ·))).map (Option.map (· + s)) := by
      simp [List.map_map]
    have hcu : some (c * u) ∈ (k.map some).map (Option.map (c * ·)) :=
      List.mem_map.2 ⟨some u, List.mem_map.2 ⟨u, hu, rfl⟩, rfl⟩
    have hcv : some (c * v) ∈ (k.map some).map (Option.map (c * ·)) :=
      List.mem_map.2 ⟨some v, List.mem_map.2 ⟨v, hv, rfl⟩, rfl⟩
    rw [e1, (C18_offset_invariant _ _ _ hcu hcv (fun h => huv (mul_left_cancel₀ hc.ne' h)) s).1,
      (C18_standardize_scale (k.map some) u v (List.mem_map.2 ⟨u, hu, rfl⟩) (List.mem_map.2 ⟨v, hv, rfl⟩) huv c hc).1]
  have hinit : pdfInit (img.map (Option.map (fun t => c * t + s))) (minVal.map (fun t => c * t + s)) none none
      (some "standardize") = pdfInit img minVal none none (some "standardize") := by
    unfold pdfInit
    rw [hk, hk2]
    simp only [bind, Except.bind, pure, Except.pure, dataNormalization, if_true, hst]
  unfold pdfDistInit
  simp only [hnorm, hinit]

/-- With `normalization_type='normalize_by_mean'` the unit of the first image does not matter. -/
theorem C79_by_mean (img : List (Option ℝ)) (minVal : Option ℝ) (b : PdfInput) (o : PdfDistOpts)
    (hnorm : o.norm = some "normalize_by_mean") (c : ℝ) (hc : 0 < c) :
    pdfDistInit ⟨img.map (Option.map (fun t => c * t + 0)), minVal.map (fun t => c * t + 0), none⟩ b o =
      pdfDistInit ⟨img, minVal, none⟩ b o := by
  obtain ⟨k, hk, hk2⟩ := keep_affine img minVal c 0 hc
  have hst : normalizeByMean ((k.map (fun t => c * t + 0)).map some) = normalizeByMean (k.map some) := by
    unfold normalizeByMean nanmean
    rw [validVals_some, validVals_some, List.map_map, List.map_map, List.map_map]
    cases hm : meanO k with
    | none =>
      have : k = [] := by
        unfold meanO at hm
        by_contra hne
        rw [if_neg hne] at hm
        cases hm
      subst this; rfl
    | some m =>
      rw [meanO_affine hm]
      apply List.map_congr_left
      intro t _
      simp only [Function.comp, add_zero]
      by_cases h0 : m = 0
      · subst h0; simp [divO]
      · have : c * m ≠ 0 := mul_ne_zero hc.ne' h0
        simp only [divO, bind, Option.bind]
        rw [if_neg this, if_neg h0, mul_div_mul_left _ _ hc.ne']
  have hinit : pdfInit (img.map (Option.map (fun t => c * t + 0))) (minVal.map (fun t => c * t + 0)) none none
      (some "normalize_by_mean") = pdfInit img minVal none none (some "normalize_by_mean") := by
    unfold pdfInit
    rw [hk, hk2]
    simp only [bind, Except.bind, pure, Except.pure, dataNormalization]
    simp only [show ("normalize_by_mean" = "standardize") = False by simp, show ("normalize_by_mean" = "center") = False by simp,
      show ("normalize_by_mean" = "normalize") = False by simp, if_false, if_true, hst]
  unfold pdfDistInit
  simp only [hnorm, hinit]

/-- Which distances are computed, and what is refused. -/
theorem C79_choice (a b : PdfInput) (o : PdfDistOpts) (d : PdfDist) (s : String) :
    (o.doFit = true → o.norm = some "standardize" ∨ o.norm = some "center" →
      pdfDistInit a b o = .error .runtimeError) ∧
    (s ≠ "all" ∧ s ≠ "hellinger" ∧ s ≠ "ks" ∧ s ≠ "lognormal" → ∀ f, pdfDistMetric d f s = .error .typeError) ∧
    pdfDistMetric d none "lognormal" = .error .runtimeError ∧
    (∀ r, pdfDistMetric d none "all" = .ok r → ∃ h k, pdfDistHellinger d = .ok h ∧ pdfDistKs d = .ok k ∧
      r = ⟨some h, some k, none⟩) ∧
    (∀ f g r, pdfDistMetric d (some (f, g)) "all" = .ok r → ∃ h k l, pdfDistHellinger d = .ok h ∧
      pdfDistKs d = .ok k ∧ pdfDistLognormal (some f) (some g) = .ok l ∧ r = ⟨some h, some k, some l⟩) := by
  refine ⟨?_, ?_, ?_, ?_, ?_⟩
  · intro h1 h2
    unfold pdfDistInit
    rw [if_pos]
    unfold pdfFitAllowed
    rcases h2 with h2 | h2 <;> simp [h1, h2]
  · rintro ⟨h1, h2, h3, h4⟩ f
    unfold pdfDistMetric
    rw [if_neg h1, if_neg h2, if_neg h3, if_neg h4]
  · simp [pdfDistMetric]
  · intro r hr
    unfold pdfDistMetric at hr
    simp only [if_true, bind, Except.bind, pure, Except.pure] at hr
    split at hr
    · cases hr
    · rename_i h hh
      split at hr
      · cases hr
      · rename_i k hk
        cases hr
        exact ⟨h, k, hh, hk, rfl⟩
  · intro f g r hr
    unfold pdfDistMetric at hr
    simp only [if_true, bind, Except.bind, pure, Except.pure] at hr
    split at hr
    · cases hr
    · rename_i h hh
      split at hr
      · cases hr
      · rename_i k hk
        split at hr
        · cases hr
        · rename_i l hl
          cases hr
          exact ⟨h, k, l, hh, hk, hl, rfl⟩

/-! ### Violations -/

/-- With `nbins=1` there is no bin: any two images have Hellinger distance 0. -/
theorem C79_one_bin_violated (a b : PdfInput) (o : PdfDistOpts) (d : PdfDist) (hn : o.nbins = some 1)
    (h : pdfDistInit a b o = .ok d) : pdfDistHellinger d = .ok 0 := by
  unfold pdfDistInit at h
  split_ifs at h
  simp only [bind, Except.bind, pure, Except.pure] at h
  split at h
  · cases h
  · rename_i p1 _
    split at h
    · cases h
    · rename_i p2 _
      split at h
      · cases h
      · rename_i e he
        have hen : e.n = 1 := by
          unfold commonHistogramBins at he
          rw [if_neg (by omega)] at he
          split at he
          · cases he
            simp only [hn, Bool.false_eq_true, if_false]
            rfl
          · cases he
        have hs : ∀ i, i + 1 < e.n → e.get i ≤ e.get (i + 1) := by intro i hi; omega
        obtain ⟨r1, g1, -, q1⟩ := runPdf_edges p1 e hs
        obtain ⟨r2, g2, -, q2⟩ := runPdf_edges p2 e hs
        rw [g1, g2] at h
        cases h
        unfold pdfDistHellinger
        simp only [q1, q2]
        unfold hellinger
        have e1 : (pdfUnit (histDensity e (validVals p1.data))).n = 0 := by
          show e.n - 1 = 0; omega
        have e2 : (pdfUnit (histDensity e (validVals p2.data))).n = 0 := by
          show e.n - 1 = 0; omega
        rw [if_neg (by rw [e1, e2]; simp), e1]
        simp

/-- When no value of the first image lies within the bin limits its densities are NaN and the distance is
reported as 0, however different the images are. -/
theorem C79_limits_violated (a b : PdfInput) (o : PdfDistOpts) (d : PdfDist) (h : pdfDistInit a b o = .ok d)
    (hs : StrictEdges d.bins) (hn : 2 ≤ d.bins.n)
    (hout : ∀ x ∈ validVals d.pdf1.data, ¬ (d.bins.get 0 ≤ x ∧ x ≤ d.bins.get (d.bins.n - 1))) :
    pdfDistHellinger d = .ok 0 := by
  unfold pdfDistInit at h
  split_ifs at h
  simp only [bind, Except.bind, pure, Except.pure] at h
  split at h
  · cases h
  · rename_i p1 _
    split at h
    · cases h
    · rename_i p2 _
      split at h
      · cases h
      · rename_i e he
        split at h
        · cases h
        · rename_i r1 g1
          split at h
          · cases h
          · rename_i r2 g2
            cases h
            simp only at hs hn hout
            have hle : ∀ i, i + 1 < e.n → e.get i ≤ e.get (i + 1) := fun i hi => (hs i (i + 1) (by omega) hi).le
            obtain ⟨r1', g1', d1, q1⟩ := runPdf_edges p1 e hle
            obtain ⟨r2', g2', -, q2⟩ := runPdf_edges p2 e hle
            rw [g1] at g1'
            rw [g2] at g2'
            cases g1'
            cases g2'
            rw [d1] at hout
            have hnone : ∀ k, (histDensity e (validVals p1.data)).get k = none := by
              intro k
              have hsum := histCounts_sum hs hn (validVals p1.data)
              rw [List.filter_eq_nil_iff.2 (by
                intro x hx
                simpa using hout x hx), List.length_nil] at hsum
              unfold histDensity
              simp only [hsum]
              cases divO (some ((histCounts e (validVals p1.data)).get k : ℝ)) (some (e.get (k + 1) - e.get k)) <;>
                simp [divO]
            unfold pdfDistHellinger
            simp only [q1, q2]
            unfold hellinger
            rw [if_neg (by show ¬ (e.n - 1 ≠ e.n - 1); simp)]
            have : ∀ i ∈ range (pdfUnit (histDensity e (validVals p1.data))).n,
                hellTerm ((pdfUnit (histDensity e (validVals p1.data))).get i)
                  ((pdfUnit (histDensity e (validVals p2.data))).get i) = 0 := by
              intro i _
              have : (pdfUnit (histDensity e (validVals p1.data))).get i = none := by
                unfold pdfUnit
                simp only [hnone]
                simp [divO]
              rw [this]
              simp [hellTerm, sqrtO, subO]
            rw [sum_eq_zero this]
            simp

/-- Non-vacuity: images `0, 1` and `2, 4` with three edges. -/
theorem pdf_pair_example : ∃ p1 p2, pdfInit [some 0, none, some 1] none none none none = .ok p1 ∧
    pdfInit [some 2, some (4 : ℝ)] none none none none = .ok p2 ∧ some 0 ∈ p1.data ∧ some 2 ∈ p2.data ∧
    IsLeast (joint p1.data p2.data) 0 ∧ IsGreatest (joint p1.data p2.data) 4 ∧
    2 ≤ edgeCount (some 3) p1.data p2.data ∧ pdfFitAllowed {} = true := by
  refine ⟨⟨[some 0, some 1], none, none, none⟩, ⟨[some 2, some 4], none, none, none⟩, ?_, ?_, by simp, by simp,
    ⟨by simp [joint], ?_⟩, ⟨by simp [joint], ?_⟩, by simp [edgeCount], rfl⟩
  · simp [pdfInit, pdfKeep, aboveMin, bind, Except.bind, pure, Except.pure]
  · simp [pdfInit, pdfKeep, aboveMin, bind, Except.bind, pure, Except.pure]
  · rintro v (h | h) <;> simp at h <;> rcases h with rfl | rfl <;> norm_num
  · rintro v (h | h) <;> simp at h <;> rcases h with rfl | rfl <;> norm_num

end TS
