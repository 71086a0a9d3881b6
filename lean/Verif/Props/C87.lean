import Verif.Model.ScfSpectrum
import Verif.Props.C05
import Verif.Props.C25

/-! C87: the SCF spectrum reports averages of the surface over lag length, at lags in the unit of the lags. -/

namespace TS.Spec
open Finset

/-- Lags of the documented kind: an odd number of them, evenly spaced by `step`, zero in the middle. -/
def LagGrid (L : Arr1 ℝ) (step : ℝ) : Prop :=
  L.n % 2 = 1 ∧ 3 ≤ L.n ∧ step ≠ 0 ∧ ∀ k < L.n, L.get k = ((k : ℝ) - (L.n / 2 : ℕ)) * step

/-- Length of the lag vector of entry `(j, i)` of the surface. -/
noncomputable def lagLength (L : Arr1 ℝ) (j i : ℕ) : ℝ := Real.sqrt (L.get j ^ 2 + L.get i ^ 2)

open Classical in
/-- The entries with a value, inside the wedge if there is one, whose lag length lies in bin `k`. -/
noncomputable def entriesAt (s : Arr2 (Option ℝ)) (azim : Option (Arr2 Bool)) (L edges : Arr1 ℝ) (k : ℕ) :
    Finset (ℕ × ℕ) :=
  (range s.n ×ˢ range s.m).filter (fun p => s.get p.1 p.2 ≠ none ∧ (∀ a, azim = some a → a.get p.1 p.2 = true) ∧
    InBin edges k (lagLength L p.1 p.2))

end TS.Spec

namespace TS
open Finset Spec

/-! ### The array of shape `size` -/

private theorem scfStep_shape {boundary : String} {data : Arr3 (Option ℝ)} {lags : Arr1 ℝ} {s s' : Arr2 (Option ℝ)} {n : ℕ}
    (h : scfStep boundary data lags s n = .ok s') : s'.n = s.n ∧ s'.m = s.m := by
  unfold scfStep at h
  simp only [bind, Except.bind] at h
  split at h
  · cases h
  · split_ifs at h
    cases h
    exact ⟨rfl, rfl⟩

private theorem foldl_in (boundary : String) (data : Arr3 (Option ℝ)) (lags : Arr1 ℝ) (l : List ℕ)
    (hl : ∀ n ∈ l, n < lags.n * lags.n) : ∀ s : Arr2 (Option ℝ), s.n = lags.n → s.m = lags.n →
    l.foldlM (scfStepIn boundary data lags) s = l.foldlM (scfStep boundary data lags) s := by
  induction l with
  | nil => intro s _ _; rfl
  | cons n t ih =>
    intro s hn hm
    rw [List.foldlM_cons, List.foldlM_cons]
    have hlt := hl n (by simp)
    have hpos : 0 < lags.n := by
      rcases Nat.eq_zero_or_pos lags.n with h0 | h0
      · rw [h0] at hlt; simp at hlt
      · exact h0
    have hc : n % lags.n < s.n ∧ n / lags.n < s.m := by
      rw [hn, hm]
      exact ⟨Nat.mod_lt _ hpos, Nat.div_lt_of_lt_mul hlt⟩
    cases h1 : scfStep boundary data lags s n with
    | error e => simp only [scfStepIn, h1, bind, Except.bind]
    | ok s' =>
      have hs := scfStep_shape h1
      simp only [scfStepIn, h1, bind, Except.bind, if_pos hc]
      exact ih (fun k hk => hl k (by simp [hk])) s' (hs.1.trans hn) (hs.2.trans hm)

/-- With as many lags as the size says, the surface is the one of C25. -/
theorem surfaceIn_eq (boundary : String) (data : Arr3 (Option ℝ)) (lags : Arr1 ℝ) :
    scfSurfaceIn boundary lags.n data lags = scfSurface boundary data lags := by
  unfold scfSurfaceIn scfSurface
  split_ifs with h
  · exact foldl_in boundary data lags _ (fun n hn => List.mem_range.1 hn) _ rfl rfl
  · rfl

private theorem inBin_scale {e : Arr1 ℝ} {k : ℕ} {x c : ℝ} (hc : 0 < c) :
    InBin (e.map (fun t => t * c)) k (x * c) ↔ InBin e k x := by
  unfold InBin Arr1.map
  simp only [mul_le_mul_iff_left₀ hc, mul_lt_mul_iff_left₀ hc, mul_left_inj' hc.ne']

private theorem lagLength_grid {L : Arr1 ℝ} {step : ℝ} (h : LagGrid L step) {j i : ℕ} (hj : j < L.n) (hi : i < L.n) :
    lagLength L j i = pixRadius L.n L.n j i * |step| := by
  unfold lagLength pixRadius
  rw [h.2.2.2 j hj, h.2.2.2 i hi, ← Real.sqrt_sq_eq_abs, ← Real.sqrt_mul (by positivity)]
  congr 1
  ring

private theorem lagDiff_grid {o : ScfObj} {step : ℝ} (h : LagGrid o.rollLags step) : o.lagDiff = .ok |step| := by
  have h3 := h.2.1
  unfold ScfObj.lagDiff
  rw [if_neg (by omega), h.2.2.2 1 (by omega), h.2.2.2 0 (by omega)]
  congr 2
  push_cast
  ring

/-- The surface of an object: what it holds, or what `compute_surface` gives. -/
private theorem spectrum_ok {o o' : ScfObj} {data : Arr3 (Option ℝ)} {kw : ScfSpecKw}
    (h : o.computeSpectrum data kw = .ok o') :
    ∃ (s : Arr2 (Option ℝ)) (out : PspecOut) (d : ℝ), o'.surface = some s ∧ (o.surface = some s ∨
        (o.surface = none ∧ scfSurfaceIn "continuous" o.size data o.pixLags = .ok s)) ∧
      pspecFn s kw.args = .ok out ∧ ¬ (kw.theta0.isSome ∧ out.azim = none) ∧ o.lagDiff = .ok d ∧
      o'.lags = out.binCents.map (fun c => c * d) ∧ o'.spectrum = out.ps1D ∧ o'.azim = out.azim ∧
      o'.rollLags = o.rollLags ∧ o'.pixPerUnit = o.pixPerUnit ∧ o'.size = o.size := by
  unfold ScfObj.computeSpectrum at h
  simp only [bind, Except.bind, pure, Except.pure] at h
  obtain ⟨o1, s, hs, e1, e2, e3, hor, he⟩ : ∃ (o1 : ScfObj) (s : Arr2 (Option ℝ)), o1.surface = some s ∧
      o1.rollLags = o.rollLags ∧ o1.pixPerUnit = o.pixPerUnit ∧ o1.size = o.size ∧
      (o.surface = some s ∨ (o.surface = none ∧ scfSurfaceIn "continuous" o.size data o.pixLags = .ok s)) ∧
      o.ensureSurface data = .ok o1 := by
    cases hsur : o.surface with
    | some s => exact ⟨o, s, hsur, rfl, rfl, rfl, Or.inl rfl, by unfold ScfObj.ensureSurface; rw [hsur]⟩
    | none =>
      cases hc : scfSurfaceIn "continuous" o.size data o.pixLags with
      | error e =>
        have : o.ensureSurface data = .error e := by
          unfold ScfObj.ensureSurface ScfObj.computeSurface
          rw [hsur]
          simp only [hc, bind, Except.bind]
        rw [this] at h
        cases h
      | ok s =>
        refine ⟨{ o with surface := some s }, s, rfl, rfl, rfl, rfl, Or.inr ⟨rfl, rfl⟩, ?_⟩
        unfold ScfObj.ensureSurface ScfObj.computeSurface
        rw [hsur]
        simp only [hc, bind, Except.bind, pure, Except.pure]
  rw [he] at h
  simp only [hs, Option.getD_some] at h
  cases hp : pspecFn s kw.args with
  | error e => rw [hp] at h; cases h
  | ok out =>
    rw [hp] at h
    simp only [scfUnpack] at h
    split_ifs at h with hu
    simp only at h
    have hd : o1.lagDiff = o.lagDiff := by unfold ScfObj.lagDiff; rw [e1]
    rw [hd] at h
    cases hl : o.lagDiff with
    | error e => rw [hl] at h; cases h
    | ok d =>
      rw [hl] at h
      simp only [Except.ok.injEq] at h
      subst h
      exact ⟨s, out, d, rfl, hor, hp, hu, rfl, rfl, rfl, rfl, e1, e2, e3⟩

/-- The shape of the surface is the size of the object. -/
def ScfObj.Fresh (o : ScfObj) (data : Arr3 (Option ℝ)) : Prop :=
  o.size = o.rollLags.n ∧ ∀ s, o.surface = some s → ∃ b, scfSurface b data o.pixLags = .ok s

private theorem surface_shape {b : String} {data : Arr3 (Option ℝ)} {lags : Arr1 ℝ} {s : Arr2 (Option ℝ)}
    (h : scfSurface b data lags = .ok s) : s.n = lags.n ∧ s.m = lags.n := by
  have gen : ∀ (l : List ℕ) (s0 : Arr2 (Option ℝ)), l.foldlM (scfStep b data lags) s0 = .ok s → s.n = s0.n ∧ s.m = s0.m := by
    intro l
    induction l with
    | nil => intro s0 h; simp only [List.foldlM_nil, pure, Except.pure, Except.ok.injEq] at h; subst h; exact ⟨rfl, rfl⟩
    | cons n t ih =>
      intro s0 h
      rw [List.foldlM_cons] at h
      simp only [bind, Except.bind] at h
      cases h1 : scfStep b data lags s0 n with
      | error e => rw [h1] at h; cases h
      | ok s1 =>
        rw [h1] at h
        have := scfStep_shape h1
        have h2 := ih s1 h
        exact ⟨h2.1.trans this.1, h2.2.trans this.2⟩
  unfold scfSurface at h
  split_ifs at h
  exact gen _ _ h

/-- **C87 (the spectrum).** For evenly spaced lags, after `compute_spectrum` there are increasing bin edges, in
the unit of the lags, such that the reported lags are the bin centres and every value is the mean of the surface
over the entries whose lag length lies in the bin (missing for fewer than two entries).  With default options
the bins run from half a step to the longest lag on the surface.  Missing: other lags the class accepts
(`C87_uneven_violated`, `C87_offcentre_violated`) and lags assigned after the surface was computed
(`C87_stale_violated`). -/
theorem C87_spectrum_partial (o o' : ScfObj) (data : Arr3 (Option ℝ)) (kw : ScfSpecKw) (step : ℝ)
    (hg : LagGrid o.rollLags step) (hf : o.Fresh data) (hnb : kw.nbins ≠ some 0) (hbs : 0 < kw.binsize)
    (hlo : ∀ a, kw.minBin = some a → 0 < a)
    (hhi : ∀ b, kw.maxBin = some b → kw.minBin.getD (1 / 2) < b) (hmax : kw.maxBin = none → kw.minBin.getD (1 / 2) < 1)
    (h : o.computeSpectrum data kw = .ok o') :
    ∃ (s : Arr2 (Option ℝ)) (edges : Arr1 ℝ), o'.surface = some s ∧ (∃ b, scfSurface b data o.pixLags = .ok s) ∧
      StrictEdges edges ∧ 2 ≤ edges.n ∧ o'.lags.n = edges.n - 1 ∧ o'.spectrum.n = edges.n - 1 ∧
      edges.get 0 = kw.minBin.getD (1 / 2) * |step| ∧
      (kw.maxBin = none → IsGreatest {r | ∃ j < s.n, ∃ i < s.m, lagLength o.rollLags j i = r} (edges.get (edges.n - 1))) ∧
      (∀ b, kw.maxBin = some b → edges.get (edges.n - 1) = b * |step|) ∧
      (∀ n, kw.nbins = some n → o'.lags.n = n) ∧
      ∀ k < o'.lags.n, o'.lags.get k = (edges.get k + edges.get (k + 1)) / 2 ∧
        o'.spectrum.get k =
          if (entriesAt s o'.azim o.rollLags edges k).card ≤ 1 then none
          else some (pixMean (entriesAt s o'.azim o.rollLags edges k) (fun p => (s.get p.1 p.2).getD 0)) := by
  obtain ⟨s, out, d, hs, hor, hp, hu, hd, e1, e2, e3, -⟩ := spectrum_ok h
  have hsur : ∃ b, scfSurface b data o.pixLags = .ok s := by
    rcases hor with h1 | ⟨-, h1⟩
    · exact hf.2 s h1
    · refine ⟨"continuous", ?_⟩
      rw [← surfaceIn_eq]
      rw [hf.1] at h1
      exact h1
  obtain ⟨b, hb⟩ := hsur
  obtain ⟨sn, sm⟩ := surface_shape hb
  have hpn : o.pixLags.n = o.rollLags.n := rfl
  rw [hpn] at sn sm
  have h3 := hg.2.1
  have hstep : 0 < |step| := abs_pos.2 hg.2.2.1
  rw [lagDiff_grid hg] at hd
  cases hd
  have hlowv : lowBin kw.args.returnFreqs kw.args.minBin s.n s.m = kw.minBin.getD (1 / 2) := by
    unfold lowBin ScfSpecKw.args
    simp
  obtain ⟨he, hb2, hfirst, hlast, hnbn, hps, hbn, hcent⟩ := C05_edges s kw.args out (by omega) (by omega) (by omega) hp
    hnb hbs (by
      rw [hlowv]
      cases hm : kw.minBin with
      | none => norm_num
      | some a => simpa using hlo a hm) (by
      intro c hc
      rw [hlowv]
      cases hm : kw.maxBin with
      | some b =>
        have : kw.args.maxBin = some b := hm
        rw [this] at hc
        simp only [IsHighBin] at hc
        rw [hc]
        exact hhi b hm
      | none =>
        have : kw.args.maxBin = none := hm
        rw [this] at hc
        have hrf : kw.args.returnFreqs = false := rfl
        simp only [IsHighBin, hrf, Bool.false_eq_true, if_false] at hc
        refine lt_of_lt_of_le (hmax hm) (le_trans ?_ (hc.2 ⟨s.n / 2, by omega, s.m / 2 - 1, by omega, rfl⟩))
        unfold pixRadius
        have : ((s.m / 2 - 1 : ℕ) : ℝ) = (s.m / 2 : ℕ) - 1 := by
          rw [Nat.cast_sub (by omega)]; simp
        rw [this]
        simp)
  rw [hlowv] at hfirst
  have hent : ∀ k, entriesAt s out.azim o.rollLags (out.edges.map (fun t => t * |step|)) k =
      binPixels s out.azim out.edges false k := by
    intro k
    ext ⟨j, i⟩
    unfold entriesAt binPixels
    simp only [mem_filter, mem_product, mem_range]
    refine and_congr_right (fun hp => ?_)
    rw [lagLength_grid hg (by omega) (by omega), inBin_scale hstep, sn, sm]
    simp [binRadius]
  refine ⟨s, out.edges.map (fun t => t * |step|), hs, ⟨b, hb⟩, ?_, hb2, ?_, ?_, ?_, ?_, ?_, ?_, ?_⟩
  · intro i j hij hj
    exact mul_lt_mul_of_pos_right (he i j hij hj) hstep
  · rw [e1]; exact hbn
  · rw [e2]; exact hps
  · show out.edges.get 0 * |step| = _
    rw [hfirst]
  · intro hm
    have hm' : kw.args.maxBin = none := hm
    have hrf : kw.args.returnFreqs = false := rfl
    rw [hm'] at hlast
    simp only [IsHighBin, hrf, Bool.false_eq_true, if_false] at hlast
    obtain ⟨⟨j, hj, i, hi, hji⟩, hle⟩ := hlast
    refine ⟨⟨j, hj, i, hi, ?_⟩, ?_⟩
    · rw [lagLength_grid hg (by omega) (by omega)]
      show _ = out.edges.get (out.edges.n - 1) * |step|
      rw [← hji, sn, sm]
    · rintro r ⟨j', hj', i', hi', rfl⟩
      rw [lagLength_grid hg (by omega) (by omega)]
      refine mul_le_mul_of_nonneg_right ?_ hstep.le
      have := hle ⟨j', hj', i', hi', rfl⟩
      rwa [sn, sm] at this
  · intro b hbm
    have hm' : kw.args.maxBin = some b := hbm
    rw [hm'] at hlast
    simp only [IsHighBin] at hlast
    show out.edges.get (out.edges.n - 1) * |step| = _
    rw [hlast]
  · intro n hn
    have := hnbn n hn
    rw [e1]
    show out.binCents.n = n
    omega
  · intro k hk
    rw [e1, e2, e3]
    refine ⟨?_, ?_⟩
    · show out.binCents.get k * |step| = (out.edges.get k * |step| + out.edges.get (k + 1) * |step|) / 2
      rw [hcent]
      ring
    · rw [hent k, (C05_bin_means s kw.args out (by omega) (by omega) (by omega) hp he hb2 k).2]
      have hrs : kw.args.returnStddev = true := rfl
      have hrf : kw.args.returnFreqs = false := rfl
      simp only [hrs, hrf, true_and]
      congr 1
      apply propext
      omega

/-- The bins with the default keywords. -/
private theorem edges0 {s : Arr2 (Option ℝ)} {out : PspecOut} {n : ℕ} (hn : 3 ≤ n) (sn : s.n = n) (sm : s.m = n)
    (kw : ScfSpecKw) (hk1 : kw.nbins = none) (hk2 : 0 < kw.binsize) (hk3 : kw.minBin = none) (hk4 : kw.maxBin = none)
    (hp : pspecFn s kw.args = .ok out) :
    StrictEdges out.edges ∧ 2 ≤ out.edges.n ∧ out.edges.get 0 = 1 / 2 ∧
      IsGreatest {r | ∃ i < n, ∃ j < n, pixRadius n n i j = r} (out.edges.get (out.edges.n - 1)) ∧
      out.ps1D.n = out.edges.n - 1 ∧ out.binCents.n = out.edges.n - 1 ∧
      (∀ k, out.binCents.get k = (out.edges.get k + out.edges.get (k + 1)) / 2) ∧
      ∀ k, out.ps1D.get k = if (binPixels s out.azim out.edges false k).card ≤ 1 then none
        else some (pixMean (binPixels s out.azim out.edges false k) (fun p => (s.get p.1 p.2).getD 0)) := by
  have hlow : lowBin kw.args.returnFreqs kw.args.minBin s.n s.m = 1 / 2 := by
    unfold lowBin ScfSpecKw.args
    simp [hk3]
  have hm' : kw.args.maxBin = none := hk4
  have hrf : kw.args.returnFreqs = false := rfl
  obtain ⟨h1, h2, h3, h4, -, h5, h6, h7⟩ := C05_edges s kw.args out (by omega) (by omega) (by omega) hp
    (by show kw.nbins ≠ some 0; simp [hk1]) hk2 (by rw [hlow]; norm_num) (by
      intro c hc
      rw [hlow]
      rw [hm'] at hc
      simp only [IsHighBin, hrf, Bool.false_eq_true, if_false] at hc
      refine lt_of_lt_of_le ?_ (hc.2 ⟨s.n / 2, by omega, s.m / 2 - 1, by omega, rfl⟩)
      unfold pixRadius
      have : ((s.m / 2 - 1 : ℕ) : ℝ) = (s.m / 2 : ℕ) - 1 := by
        rw [Nat.cast_sub (by omega)]; simp
      rw [this]
      norm_num)
  rw [hlow] at h3
  rw [hm'] at h4
  simp only [IsHighBin, hrf, Bool.false_eq_true, if_false, sn, sm] at h4
  refine ⟨h1, h2, h3, h4, h5, h6, h7, ?_⟩
  intro k
  rw [(C05_bin_means s kw.args out (by omega) (by omega) (by omega) hp h1 h2 k).2]
  have hrs : kw.args.returnStddev = true := rfl
  simp only [hrs, hrf, true_and]
  congr 1
  apply propext
  omega

/-- **C87 (even bins).** The reported lags are evenly spaced, whatever `logspacing` says. -/
theorem C87_even (o o' : ScfObj) (data : Arr3 (Option ℝ)) (kw : ScfSpecKw) (h : o.computeSpectrum data kw = .ok o') (k : ℕ) :
    o'.lags.get (k + 2) - o'.lags.get (k + 1) = o'.lags.get (k + 1) - o'.lags.get k := by
  obtain ⟨s, out, d, -, -, hp, -, -, e1, -⟩ := spectrum_ok h
  have hc : ∃ a b : ℝ, ∀ j : ℕ, out.binCents.get j = a + j * b := by
    have hl : kw.args.logspacing = false := rfl
    have hrf : kw.args.returnFreqs = false := rfl
    unfold pspecFn at hp
    simp only [bind, Except.bind, pure, Except.pure, hl, hrf, Bool.false_eq_true, if_false] at hp
    split at hp
    · cases hp
    split at hp
    · cases hp
    split at hp
    · cases hp
    rename_i _ nb _ _ mx _
    cases hp
    have hcent : ∀ (e : Arr1 ℝ) (b : Bool) (az : Option (Arr2 Bool)) (dist : Arr2 ℝ) (j : ℕ),
        (pspecOutput s dist az e b).binCents.get j = (e.get (j + 1) + e.get j) / 2 := by
      intro e b az dist j
      unfold pspecOutput
      cases b <;> rfl
    refine ⟨pspecMinBin kw.args.minBin false s.n s.m + (mx - pspecMinBin kw.args.minBin false s.n s.m) / (((nb + 1 : ℕ) : ℝ) - 1) / 2,
      (mx - pspecMinBin kw.args.minBin false s.n s.m) / (((nb + 1 : ℕ) : ℝ) - 1), fun j => ?_⟩
    rw [hcent]
    simp only [pspecEdges, Bool.false_eq_true, if_false, linspace]
    push_cast
    ring
  obtain ⟨a, b, hab⟩ := hc
  have hg : ∀ j, o'.lags.get j = out.binCents.get j * d := by
    intro j; rw [e1]; rfl
  rw [hg, hg, hg, hab, hab, hab]
  push_cast
  ring

/-- **C87 (order).** The reported lags are positive and increase. -/
theorem C87_order (o o' : ScfObj) (data : Arr3 (Option ℝ)) (step : ℝ)
    (hg : LagGrid o.rollLags step) (hf : o.Fresh data) (h : o.computeSpectrum data {} = .ok o') :
    0 < o'.lags.n ∧ o'.spectrum.n = o'.lags.n ∧ (∀ k < o'.lags.n, |step| / 2 < o'.lags.get k) ∧
      ∀ k l, k < l → l < o'.lags.n → o'.lags.get k < o'.lags.get l := by
  obtain ⟨s, e, -, -, he, h2, hn, hn', h0, -, -, -, hk⟩ := C87_spectrum_partial o o' data {} step hg hf (by simp) (by norm_num)
    (by simp) (by simp) (by norm_num) h
  have hstep : 0 < |step| := abs_pos.2 hg.2.2.1
  have hge : ∀ k < e.n, |step| / 2 ≤ e.get k := by
    intro k hk
    rcases Nat.eq_zero_or_pos k with h | h
    · subst h; rw [h0]; simp only [Option.getD_none]; linarith
    · have := he 0 k h hk
      rw [h0] at this; simp only [Option.getD_none] at this; linarith
  refine ⟨by omega, by omega, ?_, ?_⟩
  · intro k hkn
    rw [(hk k hkn).1]
    have := he k (k + 1) (by omega) (by omega)
    have := hge k (by omega)
    linarith
  · intro k l hkl hl
    rw [(hk k (by omega)).1, (hk l hl).1]
    have h1 := he (k + 1) (l + 1) (by omega) (by omega)
    have h3 := he k l hkl (by omega)
    linarith

/-- **C87 (range).** Every reported value lies between `1 - √2` and 1. -/
theorem C87_range (o o' : ScfObj) (data : Arr3 (Option ℝ)) (step : ℝ)
    (hg : LagGrid o.rollLags step) (hf : o.Fresh data)
    (hfit : o.surface ≠ none → ∀ k < o.rollLags.n, |⌈o.pixLags.get k⌉| ≤ data.m ∧ |⌈o.pixLags.get k⌉| ≤ data.p)
    (h : o.computeSpectrum data {} = .ok o') (k : ℕ) (v : ℝ) (hv : o'.spectrum.get k = some v) :
    1 - Real.sqrt 2 ≤ v ∧ v ≤ 1 := by
  obtain ⟨s, out, d, hs, hor, hp, hu, hd, e1, e2, e3, -⟩ := spectrum_ok h
  have hsur : ∃ b, scfSurface b data o.pixLags = .ok s ∧ (b = "cut" → o.surface ≠ none) := by
    rcases hor with h1 | ⟨-, h1⟩
    · obtain ⟨b, hb⟩ := hf.2 s h1
      exact ⟨b, hb, fun _ => by rw [h1]; simp⟩
    · refine ⟨"continuous", ?_, by simp⟩
      rw [← surfaceIn_eq]
      rw [hf.1] at h1
      exact h1
  obtain ⟨b, hb, hbc⟩ := hsur
  have hbb : b = "continuous" ∨ b = "cut" := by
    by_contra hc
    unfold scfSurface at hb
    rw [if_neg hc] at hb
    cases hb
  obtain ⟨s', hs', hn, hm, hr⟩ := C25_bounded b hbb data o.pixLags (fun hc k hk => hfit (hbc hc) k hk)
  rw [hs'] at hb
  cases hb
  have h3 := hg.2.1
  have hpn : o.pixLags.n = o.rollLags.n := rfl
  have hE := edges0 (n := o.rollLags.n) h3 (by omega) (by omega) {} rfl (by norm_num) rfl rfl hp
  rw [e2] at hv
  refine C05_value_between s _ out (by omega) (by omega) (by omega) hp hE.1 hE.2.1 k _ _ v hv ?_
  intro p hpm x hx
  simp only [binPixels, mem_filter, mem_product, mem_range] at hpm
  exact hr p.1 (by omega) p.2 (by omega) x hx

private theorem spectrum_mk {o : ScfObj} {data : Arr3 (Option ℝ)} {kw : ScfSpecKw} {s : Arr2 (Option ℝ)} {out : PspecOut}
    {d : ℝ} (hs : o.surface = some s ∨ (o.surface = none ∧ scfSurfaceIn "continuous" o.size data o.pixLags = .ok s))
    (hp : pspecFn s kw.args = .ok out) (hu : ¬ (kw.theta0.isSome ∧ out.azim = none)) (hd : o.lagDiff = .ok d) :
    o.computeSpectrum data kw = .ok
      { o with surface := some s, lags := out.binCents.map (fun c => c * d), spectrum := out.ps1D, azim := out.azim } := by
  have he : o.ensureSurface data = .ok { o with surface := some s } := by
    unfold ScfObj.ensureSurface ScfObj.computeSurface
    rcases hs with hs | ⟨hs, hc⟩
    · rw [hs]
      simp only [Except.ok.injEq]
      cases o
      simp only at hs
      subst hs
      rfl
    · rw [hs]
      simp only [hc, bind, Except.bind, pure, Except.pure]
  have hd' : ScfObj.lagDiff { o with surface := some s } = .ok d := hd
  unfold ScfObj.computeSpectrum
  simp only [he, bind, Except.bind, pure, Except.pure, Option.getD_some, hp, scfUnpack, if_neg hu, hd']

private theorem pspec_azim {s : Arr2 (Option ℝ)} {a : PspecArgs} {out : PspecOut} (h : pspecFn s a = .ok out) :
    pspecAzim s.n s.m a.theta0 a.deltaTheta = .ok out.azim := by
  unfold pspecFn at h
  simp only [bind, Except.bind, pure, Except.pure] at h
  cases haz : pspecAzim s.n s.m a.theta0 a.deltaTheta with
  | error e => rw [haz] at h; cases h
  | ok az =>
    rw [haz] at h
    simp only at h
    cases h1 : pspecNbins a.nbins (pspecDists s.n s.m) a.binsize with
    | error e => rw [h1] at h; cases h
    | ok nb =>
      rw [h1] at h
      cases h2 : pspecMaxBin a.maxBin a.returnFreqs (pspecDists s.n s.m) with
      | error e =>
        rw [h2] at h
        simp only at h
        split_ifs at h
        · cases h3 : freqDist s.n s.m <;> rw [h3] at h <;> cases h
      | ok mb =>
        rw [h2] at h
        simp only at h
        have : ∀ x e, (pspecOutput s x az e a.returnStddev).azim = az := by
          intro x e
          unfold pspecOutput
          cases a.returnStddev <;> rfl
        split_ifs at h
        · cases h3 : freqDist s.n s.m with
          | error e => rw [h3] at h; cases h
          | ok fd =>
            rw [h3] at h
            simp only [Except.ok.injEq] at h
            rw [← h, this]
        · simp only [Except.ok.injEq] at h
          rw [← h, this]

private theorem completes_gen (o : ScfObj) (data : Arr3 (Option ℝ)) (kw : ScfSpecKw) {d : ℝ}
    (h3 : 3 ≤ o.rollLags.n) (hd : o.lagDiff = .ok d) (hf : o.Fresh data)
    (ht : kw.theta0 = none ∨ ∃ t w, kw.theta0 = some (some t) ∧ kw.deltaTheta = some w) :
    ∃ o', o.computeSpectrum data kw = .ok o' := by
  obtain ⟨s, hs, b, hb⟩ : ∃ s, (o.surface = some s ∨
      (o.surface = none ∧ scfSurfaceIn "continuous" o.size data o.pixLags = .ok s)) ∧
      ∃ b, scfSurface b data o.pixLags = .ok s := by
    cases hsur : o.surface with
    | some s => exact ⟨s, Or.inl rfl, hf.2 s hsur⟩
    | none =>
      obtain ⟨s, hs, -⟩ := C25_bounded "continuous" (Or.inl rfl) data o.pixLags (by simp)
      refine ⟨s, Or.inr ⟨rfl, ?_⟩, _, hs⟩
      rw [hf.1]
      exact (surfaceIn_eq "continuous" data o.pixLags).trans hs
  obtain ⟨sn, sm⟩ := surface_shape hb
  have hpn : o.pixLags.n = o.rollLags.n := rfl
  obtain ⟨out, hp⟩ := (C05_defined_iff s kw.args (by omega) (by omega) (by omega)).2 (by
    rintro ⟨h1, h2⟩
    rcases ht with h | ⟨t, w, h, h'⟩
    · exact h1 (by simp [ScfSpecKw.args, h])
    · rw [show kw.args.deltaTheta = kw.deltaTheta from rfl, h'] at h2
      cases h2)
  refine ⟨_, spectrum_mk hs hp ?_ hd⟩
  rintro ⟨h1, h2⟩
  rcases ht with h | ⟨t, w, h, h'⟩
  · rw [h] at h1; simp at h1
  · have ha : pspecAzim s.n s.m kw.args.theta0 kw.args.deltaTheta = .ok (some (azimMask s.n s.m t w)) := by
      simp [ScfSpecKw.args, h, h', pspecAzim]
    have := pspec_azim hp
    rw [ha, h2] at this
    cases this

/-- **C87 (always defined).** With evenly spaced lags the spectrum is computed for every cube, whatever has been
computed before, for all options except a wedge without a width. -/
theorem C87_completes (o : ScfObj) (data : Arr3 (Option ℝ)) (kw : ScfSpecKw) (step : ℝ)
    (hg : LagGrid o.rollLags step) (hf : o.Fresh data)
    (ht : kw.theta0 = none ∨ ∃ t w, kw.theta0 = some (some t) ∧ kw.deltaTheta = some w) :
    ∃ o', o.computeSpectrum data kw = .ok o' :=
  completes_gen o data kw hg.2.1 (lagDiff_grid hg) hf ht

/-- **C87 (construction).** A new object meets the conditions of the theorems: with default lags, and with given
evenly spaced ones. -/
theorem C87_init (data : Arr3 (Option ℝ)) :
    (∀ size, 3 ≤ size → LagGrid (scfObjInit size none).rollLags 1 ∧ (scfObjInit size none).Fresh data) ∧
    ∀ size l u step, LagGrid l step → LagGrid (scfObjInit size (some (l, u))).rollLags step ∧
      (scfObjInit size (some (l, u))).Fresh data := by
  constructor
  · intro size hs
    refine ⟨?_, rfl, fun s h => by simp [scfObjInit] at h⟩
    show LagGrid ((scfDefaultLags size).map _) 1
    unfold LagGrid scfDefaultLags Arr1.map
    simp only
    refine ⟨?_, ?_, one_ne_zero, ?_⟩
    · split_ifs <;> omega
    · split_ifs <;> omega
    · intro k hk
      rw [mul_one, Int.cast_sub, Int.cast_natCast, Int.cast_natCast]
  · intro size l u step hg
    have : scfGivenLags l = l := by
      unfold scfGivenLags
      rw [if_neg (by have := hg.1; omega)]
    refine ⟨?_, rfl, fun s h => by simp [scfObjInit] at h⟩
    show LagGrid (scfGivenLags l) step
    rw [this]
    exact hg

/-- **C87 (again).** Computing the spectrum a second time changes nothing. -/
theorem C87_again (o o' : ScfObj) (data : Arr3 (Option ℝ)) (kw : ScfSpecKw) (h : o.computeSpectrum data kw = .ok o') :
    o'.computeSpectrum data kw = .ok o' := by
  obtain ⟨s, out, d, hs, hor, hp, hu, hd, e1, e2, e3, e4, e5, e6⟩ := spectrum_ok h
  have hd' : o'.lagDiff = .ok d := by
    rw [← hd]; unfold ScfObj.lagDiff; rw [e4]
  rw [spectrum_mk (Or.inl hs) hp hu hd', ← e1, ← e2, ← e3, ← hs]

/-- **C87 (units).** Giving the same lags in another unit (worth `1/c` of the old one) gives the same values, at
the same lags in the new unit. -/
theorem C87_units (o o' : ScfObj) (data : Arr3 (Option ℝ)) (kw : ScfSpecKw) (c : ℝ) (hc : 0 < c)
    (h : o.computeSpectrum data kw = .ok o') :
    ∃ o2', (o.setLags (o.rollLags.map (fun x => c * x)) (o.pixPerUnit / c)).computeSpectrum data kw = .ok o2' ∧
      o2'.spectrum = o'.spectrum ∧ o2'.lags.n = o'.lags.n ∧ (∀ k, o2'.lags.get k = c * o'.lags.get k) ∧
      ∀ k, o2'.pixPerUnit * o2'.lags.get k = o'.pixPerUnit * o'.lags.get k := by
  obtain ⟨s, out, d, hs, hor, hp, hu, hd, e1, e2, e3, e4, e5, e6⟩ := spectrum_ok h
  have hpix : (o.setLags (o.rollLags.map (fun x => c * x)) (o.pixPerUnit / c)).pixLags = o.pixLags := by
    unfold ScfObj.setLags ScfObj.pixLags Arr1.map
    simp only
    congr 1
    funext x
    field_simp
  have hd' : (o.setLags (o.rollLags.map (fun x => c * x)) (o.pixPerUnit / c)).lagDiff = .ok (c * d) := by
    unfold ScfObj.lagDiff at hd ⊢
    unfold ScfObj.setLags Arr1.map
    simp only
    split_ifs at hd ⊢
    simp only [Except.ok.injEq] at hd ⊢
    rw [← hd, ← mul_sub, abs_mul, abs_of_pos hc]
  have h2 := spectrum_mk (o := o.setLags (o.rollLags.map (fun x => c * x)) (o.pixPerUnit / c)) (data := data) (s := s)
    (by rw [hpix]; exact hor) hp hu hd'
  refine ⟨_, h2, e2.symm, ?_, ?_, ?_⟩
  · rw [e1]; rfl
  · intro k
    rw [e1]
    show out.binCents.get k * (c * d) = c * (out.binCents.get k * d)
    ring
  · intro k
    rw [e1, e5]
    show o.pixPerUnit / c * (out.binCents.get k * (c * d)) = o.pixPerUnit * (out.binCents.get k * d)
    field_simp

/-! ### Where the code departs from the property -/

private theorem surface_of {o o' : ScfObj} {data : Arr3 (Option ℝ)} {kw : ScfSpecKw} (hf : o.Fresh data)
    (h : o.computeSpectrum data kw = .ok o') :
    ∃ (s : Arr2 (Option ℝ)) (out : PspecOut) (d : ℝ), o'.surface = some s ∧ s.n = o.rollLags.n ∧ s.m = o.rollLags.n ∧
      pspecFn s kw.args = .ok out ∧ o.lagDiff = .ok d ∧
      o'.lags = out.binCents.map (fun c => c * d) ∧ o'.spectrum = out.ps1D ∧ o'.azim = out.azim := by
  obtain ⟨s, out, d, hs, hor, hp, hu, hd, e1, e2, e3, -⟩ := spectrum_ok h
  obtain ⟨b, hb⟩ : ∃ b, scfSurface b data o.pixLags = .ok s := by
    rcases hor with h1 | ⟨-, h1⟩
    · exact hf.2 s h1
    · refine ⟨"continuous", ?_⟩
      rw [← surfaceIn_eq]
      rw [hf.1] at h1
      exact h1
  obtain ⟨sn, sm⟩ := surface_shape hb
  exact ⟨s, out, d, hs, sn, sm, hp, hd, e1, e2, e3⟩

private theorem azim_none {s : Arr2 (Option ℝ)} {kw : ScfSpecKw} {out : PspecOut} (hk : kw.theta0 = none)
    (h : pspecFn s kw.args = .ok out) : out.azim = none := by
  have := pspec_azim h
  simp only [ScfSpecKw.args, hk, Option.join_none, pspecAzim, Except.ok.injEq] at this
  exact this.symm

/-- The spectrum in terms of positions on the surface, whatever the lags. -/
private theorem pixel_form {o o' : ScfObj} {data : Arr3 (Option ℝ)} (h3 : 3 ≤ o.rollLags.n) (hf : o.Fresh data)
    (h : o.computeSpectrum data {} = .ok o') :
    ∃ (s : Arr2 (Option ℝ)) (e : Arr1 ℝ) (d : ℝ), o'.surface = some s ∧ s.n = o.rollLags.n ∧ s.m = o.rollLags.n ∧
      o.lagDiff = .ok d ∧ StrictEdges e ∧ 2 ≤ e.n ∧ e.get 0 = 1 / 2 ∧
      IsGreatest {r | ∃ i < o.rollLags.n, ∃ j < o.rollLags.n, pixRadius o.rollLags.n o.rollLags.n i j = r} (e.get (e.n - 1)) ∧
      o'.lags.n = e.n - 1 ∧ (∀ k, o'.lags.get k = (e.get k + e.get (k + 1)) / 2 * d) ∧
      ∀ k, o'.spectrum.get k = if (binPixels s none e false k).card ≤ 1 then none
        else some (pixMean (binPixels s none e false k) (fun p => (s.get p.1 p.2).getD 0)) := by
  obtain ⟨s, out, d, hs, sn, sm, hp, hd, e1, e2, e3⟩ := surface_of hf h
  obtain ⟨h1, h2, h4, h5, h6, h7, h8, h9⟩ := edges0 h3 sn sm {} rfl (by norm_num) rfl rfl hp
  rw [azim_none rfl hp] at h9
  refine ⟨s, out.edges, d, hs, sn, sm, hd, h1, h2, h4, h5, ?_, ?_, ?_⟩
  · rw [e1]; exact h7
  · intro k
    rw [e1]
    show out.binCents.get k * d = _
    rw [h8]
  · rw [e2]; exact h9

private theorem bin_of {s : Arr2 (Option ℝ)} {e : Arr1 ℝ} {n : ℕ} (he : StrictEdges e) (h2 : 2 ≤ e.n) (h0 : e.get 0 = 1 / 2)
    (hg : IsGreatest {r | ∃ i < n, ∃ j < n, pixRadius n n i j = r} (e.get (e.n - 1))) (sn : s.n = n) (sm : s.m = n)
    {j i : ℕ} (hj : j < n) (hi : i < n) (hr : 1 / 2 ≤ pixRadius n n j i) (hv : s.get j i ≠ none) :
    ∃ k < e.n - 1, (j, i) ∈ binPixels s none e false k := by
  have hrad : binRadius false s.n s.m j i = pixRadius n n j i := by simp [binRadius, sn, sm]
  obtain ⟨k, hk, -⟩ := C05_each_pixel_once s ⟨⟨0, fun _ => 0⟩, ⟨0, fun _ => none⟩, ⟨0, fun _ => 0⟩, none, e⟩ false he h2 j i
    (by omega) (by omega) hv (by simp) (by rw [hrad, h0]; exact hr) (by rw [hrad]; exact hg.2 ⟨j, hj, i, hi, rfl⟩)
  refine ⟨k, ?_, hk⟩
  simp only [binPixels, mem_filter] at hk
  have := hk.2.2.2.1
  omega

/-- The documented lags need only be symmetric around 0.  With lags -4, -1, 0, 1, 4 the value measured at lag 1
is averaged into a bin reported at a lag above 3/2. -/
theorem C87_uneven_violated (data : Arr3 (Option ℝ)) (o' : ScfObj)
    (h : (scfObjInit 11 (some (⟨5, fun k => [-4, -1, 0, 1, 4].getD k 0⟩, 1))).computeSpectrum data {} = .ok o') :
    ∃ (s : Arr2 (Option ℝ)) (T : ℕ → Finset (ℕ × ℕ)), o'.surface = some s ∧ (∀ k, o'.spectrum.get k = if (T k).card ≤ 1 then none
        else some (pixMean (T k) (fun p => (s.get p.1 p.2).getD 0))) ∧
      lagLength o'.rollLags 2 3 = 1 ∧ (s.get 2 3 ≠ none → ∃ k < o'.lags.n, (2, 3) ∈ T k ∧ 3 / 2 < o'.lags.get k) := by
  have hl : scfGivenLags ⟨5, fun k => [-4, -1, 0, 1, (4 : ℝ)].getD k 0⟩ = ⟨5, fun k => [-4, -1, 0, 1, (4 : ℝ)].getD k 0⟩ := by
    unfold scfGivenLags; rw [if_neg (by norm_num)]
  set o := scfObjInit 11 (some (⟨5, fun k => [-4, -1, 0, 1, (4 : ℝ)].getD k 0⟩, 1)) with ho
  have hrl : o.rollLags = ⟨5, fun k => [-4, -1, 0, 1, (4 : ℝ)].getD k 0⟩ := hl
  have hn : o.rollLags.n = 5 := by rw [hrl]
  have hf : o.Fresh data := ⟨rfl, fun s hs => by simp [ho, scfObjInit] at hs⟩
  obtain ⟨s, e, d, hs, sn, sm, hd, he, h2, h0, hg, hnn, hlag, hsp⟩ := pixel_form (by omega) hf h
  rw [hn] at sn sm hg
  obtain ⟨-, -, -, -, -, -, -, -, -, -, -, hr', -⟩ := spectrum_ok h
  refine ⟨s, binPixels s none e false, hs, hsp, ?_, ?_⟩
  · rw [hr', hrl]
    simp [lagLength]
  · intro hv
    obtain ⟨k, hk, hmem⟩ := bin_of (j := 2) (i := 3) he h2 h0 hg sn sm (by norm_num) (by norm_num)
      (by norm_num [pixRadius]) hv
    refine ⟨k, by omega, hmem, ?_⟩
    have hd3 : d = 3 := by
      unfold ScfObj.lagDiff at hd
      rw [hn, if_neg (by norm_num), hrl] at hd
      simp only [Except.ok.injEq] at hd
      rw [← hd]
      norm_num
    rw [hlag, hd3]
    have h3 : 1 / 2 ≤ e.get k := by
      rcases Nat.eq_zero_or_pos k with h | h
      · subst h; rw [h0]
      · have := he 0 k h (by omega); linarith
    have := he k (k + 1) (by omega) (by omega)
    linarith

/-- Lags that do not have 0 in the middle (0, 1, 2) are accepted: the zero lag is then averaged into a bin at a
positive lag, and the entry at lag (1, 1) into none. -/
theorem C87_offcentre_violated (data : Arr3 (Option ℝ)) (o' : ScfObj)
    (h : (scfObjInit 11 (some (⟨3, fun k => (k : ℝ)⟩, 1))).computeSpectrum data {} = .ok o') :
    ∃ (s : Arr2 (Option ℝ)) (T : ℕ → Finset (ℕ × ℕ)), o'.surface = some s ∧ (∀ k, o'.spectrum.get k = if (T k).card ≤ 1 then none
        else some (pixMean (T k) (fun p => (s.get p.1 p.2).getD 0))) ∧
      lagLength o'.rollLags 0 0 = 0 ∧ lagLength o'.rollLags 1 1 = Real.sqrt 2 ∧ (∀ k, (1, 1) ∉ T k) ∧
      (s.get 0 0 ≠ none → ∃ k < o'.lags.n, (0, 0) ∈ T k ∧ 1 / 2 < o'.lags.get k) := by
  have hl : scfGivenLags ⟨3, fun k => (k : ℝ)⟩ = ⟨3, fun k => (k : ℝ)⟩ := by
    unfold scfGivenLags; rw [if_neg (by norm_num)]
  set o := scfObjInit 11 (some (⟨3, fun k => (k : ℝ)⟩, 1)) with ho
  have hrl : o.rollLags = ⟨3, fun k => (k : ℝ)⟩ := hl
  have hn : o.rollLags.n = 3 := by rw [hrl]
  have hf : o.Fresh data := ⟨rfl, fun s hs => by simp [ho, scfObjInit] at hs⟩
  obtain ⟨s, e, d, hs, sn, sm, hd, he, h2, h0, hg, hnn, hlag, hsp⟩ := pixel_form (by omega) hf h
  rw [hn] at sn sm hg
  obtain ⟨-, -, -, -, -, -, -, -, -, -, -, hr', -⟩ := spectrum_ok h
  have hge : ∀ k < e.n, 1 / 2 ≤ e.get k := by
    intro k hk
    rcases Nat.eq_zero_or_pos k with h | h
    · subst h; rw [h0]
    · have := he 0 k h hk; linarith
  refine ⟨s, binPixels s none e false, hs, hsp, ?_, ?_, ?_, ?_⟩
  · rw [hr', hrl]; simp [lagLength]
  · rw [hr', hrl]; simp [lagLength]; norm_num
  · intro k hk
    simp only [binPixels, mem_filter] at hk
    obtain ⟨-, -, -, h1, h3, -⟩ := hk
    have := hge k (by omega)
    have hz : binRadius false s.n s.m 1 1 = 0 := by simp [binRadius, pixRadius, sn, sm]
    rw [hz] at h3
    linarith
  · intro hv
    obtain ⟨k, hk, hmem⟩ := bin_of (j := 0) (i := 0) he h2 h0 hg sn sm (by norm_num) (by norm_num)
      (by
        norm_num [pixRadius]
        rw [Real.le_sqrt' (by norm_num)]; norm_num) hv
    refine ⟨k, by omega, hmem, ?_⟩
    have hd1 : d = 1 := by
      unfold ScfObj.lagDiff at hd
      rw [hn, if_neg (by norm_num), hrl] at hd
      simp only [Except.ok.injEq] at hd
      rw [← hd]
      norm_num
    rw [hlag, hd1]
    have := hge k (by omega)
    have := he k (k + 1) (by omega) (by omega)
    linarith

/-- Non-vacuity: with these two sets of lags the spectrum is computed for every cube. -/
example (data : Arr3 (Option ℝ)) :
    (∃ o', (scfObjInit 11 (some (⟨5, fun k => [-4, -1, 0, 1, 4].getD k 0⟩, 1))).computeSpectrum data {} = .ok o') ∧
    ∃ o', (scfObjInit 11 (some (⟨3, fun k => (k : ℝ)⟩, 1))).computeSpectrum data {} = .ok o' := by
  constructor
  · refine completes_gen _ data {} (d := 3) ?_ ?_ ⟨rfl, fun s hs => by simp [scfObjInit] at hs⟩ (Or.inl rfl)
    · simp [scfObjInit, scfGivenLags]
    · simp [scfObjInit, scfGivenLags, ScfObj.lagDiff]; norm_num
  · refine completes_gen _ data {} (d := 1) ?_ ?_ ⟨rfl, fun s hs => by simp [scfObjInit] at hs⟩ (Or.inl rfl)
    · simp [scfObjInit, scfGivenLags]
    · simp [scfObjInit, scfGivenLags, ScfObj.lagDiff]

/-- `theta_0=None` is the default of the option, but writing it makes `compute_spectrum` raise. -/
theorem C87_theta_none_violated (o : ScfObj) (data : Arr3 (Option ℝ)) (step : ℝ) (hg : LagGrid o.rollLags step)
    (hf : o.Fresh data) :
    (∃ o', o.computeSpectrum data {} = .ok o') ∧ o.computeSpectrum data { theta0 := some none } = .error .valueError := by
  obtain ⟨o', h⟩ := C87_completes o data {} step hg hf (Or.inl rfl)
  refine ⟨⟨o', h⟩, ?_⟩
  have he : ∃ o1, o.ensureSurface data = .ok o1 := by
    unfold ScfObj.computeSpectrum at h
    cases hh : o.ensureSurface data with
    | ok o1 => exact ⟨o1, rfl⟩
    | error e => rw [hh] at h; cases h
  obtain ⟨o1, he⟩ := he
  unfold ScfObj.computeSpectrum at h ⊢
  simp only [he, bind, Except.bind] at h ⊢
  have ha : ScfSpecKw.args { theta0 := some none } = ScfSpecKw.args {} := rfl
  rw [ha]
  cases hp : pspecFn (o1.surface.getD ⟨0, 0, fun _ _ => none⟩) (ScfSpecKw.args {}) with
  | error e => rw [hp] at h; cases h
  | ok out =>
    have := azim_none (kw := {}) rfl hp
    simp [scfUnpack, this]

/-- A single lag has no spectrum. -/
theorem C87_single_violated (data : Arr3 (Option ℝ)) (size : ℕ) (hs : size = 1 ∨ size = 2) (kw : ScfSpecKw) :
    ∀ o', (scfObjInit size none).computeSpectrum data kw ≠ .ok o' := by
  intro o' h
  obtain ⟨s, out, d, -, -, -, -, hd, -⟩ := spectrum_ok h
  unfold ScfObj.lagDiff at hd
  rw [if_pos] at hd
  · cases hd
  · rcases hs with rfl | rfl <;> simp [scfObjInit, scfDefaultLags, Arr1.map]

private theorem foldl_bounds {boundary : String} {data : Arr3 (Option ℝ)} {lags : Arr1 ℝ} : ∀ (l : List ℕ)
    (s s' : Arr2 (Option ℝ)), l.foldlM (scfStepIn boundary data lags) s = .ok s' →
    s'.n = s.n ∧ s'.m = s.m ∧ (∀ n ∈ l, n % lags.n < s.n ∧ n / lags.n < s.m) ∧
      ∀ j i, 0 < lags.n → lags.n ≤ j → s'.get j i = s.get j i := by
  intro l
  induction l with
  | nil =>
    intro s s' h
    simp only [List.foldlM_nil, pure, Except.pure, Except.ok.injEq] at h
    subst h
    simp
  | cons n t ih =>
    intro s s' h
    rw [List.foldlM_cons] at h
    simp only [bind, Except.bind] at h
    cases h1 : scfStepIn boundary data lags s n with
    | error e => rw [h1] at h; cases h
    | ok s1 =>
      rw [h1] at h
      obtain ⟨a1, a2, a3, a4⟩ := ih s1 s' h
      unfold scfStepIn at h1
      simp only [bind, Except.bind] at h1
      cases h2 : scfStep boundary data lags s n with
      | error e => rw [h2] at h1; cases h1
      | ok s2 =>
        rw [h2] at h1
        simp only at h1
        split_ifs at h1 with hc
        simp only [Except.ok.injEq] at h1
        subst h1
        have hsh := scfStep_shape h2
        refine ⟨a1.trans hsh.1, a2.trans hsh.2, ?_, ?_⟩
        · intro k hk
          rcases List.mem_cons.1 hk with rfl | hk
          · exact hc
          · have := a3 k hk
            rwa [hsh.1, hsh.2] at this
        · intro j i h0 hj
          rw [a4 j i h0 hj]
          unfold scfStep at h2
          simp only [bind, Except.bind] at h2
          split at h2
          · cases h2
          · split_ifs at h2
            simp only [Except.ok.injEq] at h2
            rw [← h2]
            unfold Arr2.set
            simp only
            rw [if_neg]
            rintro ⟨rfl, -⟩
            exact absurd (Nat.mod_lt n h0) (not_lt.2 hj)

/-- Assigning more lags than the object was made with makes `compute_surface` fail on every cube. -/
theorem C87_more_lags_violated (o : ScfObj) (l : Arr1 ℝ) (u : ℝ) (hl : o.size < l.n) (boundary : String)
    (data : Arr3 (Option ℝ)) : ∀ o', (o.setLags l u).computeSurface boundary data ≠ .ok o' := by
  intro o' h
  unfold ScfObj.computeSurface scfSurfaceIn at h
  simp only [bind, Except.bind] at h
  have hn : (o.setLags l u).pixLags.n = l.n := rfl
  have hsz : (o.setLags l u).size = o.size := rfl
  split_ifs at h
  · cases hf : (List.range ((o.setLags l u).pixLags.n * (o.setLags l u).pixLags.n)).foldlM
      (scfStepIn boundary data (o.setLags l u).pixLags) ⟨(o.setLags l u).size, (o.setLags l u).size, fun _ _ => some 0⟩ with
    | error e => rw [hf] at h; cases h
    | ok s =>
      have := (foldl_bounds _ _ _ hf).2.2.1 o.size (by
        rw [List.mem_range, hn]
        nlinarith)
      rw [hn, hsz, Nat.mod_eq_of_lt hl] at this
      exact absurd this.1 (lt_irrefl _)

/-- Assigning fewer lags leaves rows of the surface that were never measured and hold the value 0. -/
theorem C87_fewer_lags_violated (o : ScfObj) (l : Arr1 ℝ) (u : ℝ) (h0 : 0 < l.n) (hl : l.n < o.size) (boundary : String)
    (data : Arr3 (Option ℝ)) (o' : ScfObj) (h : (o.setLags l u).computeSurface boundary data = .ok o') :
    ∃ s, o'.surface = some s ∧ s.n = o.size ∧ ∀ j i, l.n ≤ j → s.get j i = some 0 := by
  unfold ScfObj.computeSurface scfSurfaceIn at h
  simp only [bind, Except.bind] at h
  have hn : (o.setLags l u).pixLags.n = l.n := rfl
  have hsz : (o.setLags l u).size = o.size := rfl
  split_ifs at h
  · cases hf : (List.range ((o.setLags l u).pixLags.n * (o.setLags l u).pixLags.n)).foldlM
      (scfStepIn boundary data (o.setLags l u).pixLags) ⟨(o.setLags l u).size, (o.setLags l u).size, fun _ _ => some 0⟩ with
    | error e => rw [hf] at h; cases h
    | ok s =>
      rw [hf] at h
      simp only [pure, Except.pure, Except.ok.injEq] at h
      subst h
      obtain ⟨a1, a2, -, a4⟩ := foldl_bounds _ _ _ hf
      exact ⟨s, rfl, a1, fun j i hj => a4 j i h0 hj⟩

/-- A map of one channel whose columns alternate between 1 and 2. -/
private noncomputable def striped : Arr3 (Option ℝ) := ⟨1, 4, 4, fun _ _ j => some (if j % 2 = 0 then 1 else 2)⟩

private theorem striped_even (k l : ℤ) (hl : l % 2 = 0) (r : ℝ)
    (h : Spec.scf striped (Spec.periodicPairs 4 4 k l) = some r) : r = 1 := by
  unfold Spec.scf at h
  simp only at h
  split_ifs at h
  simp only [Option.some.injEq] at h
  rw [← h, Finset.sum_eq_zero]
  · simp
  · rintro ⟨p, q⟩ hpq
    have hm := (mem_filter.1 hpq).1
    simp only [Spec.periodicPairs, mem_filter] at hm
    have : p.2 % 2 = q.2 % 2 := by omega
    simp [Spec.sqDiff, striped, this]

private theorem striped_odd : ∃ r, Spec.scf striped (Spec.periodicPairs 4 4 0 1) = some r ∧ r < 1 := by
  classical
  have hval : ∀ pq ∈ Spec.periodicPairs 4 4 0 1, Spec.sqDiff striped pq.1 pq.2 /
      (Spec.power striped pq.1 + Spec.power striped pq.2) = 1 / 5 ∧
      Spec.power striped pq.1 + Spec.power striped pq.2 ≠ 0 := by
    rintro ⟨p, q⟩ hm
    simp only [Spec.periodicPairs, mem_filter] at hm
    rcases Nat.mod_two_eq_zero_or_one q.2 with h | h
    · have h' : p.2 % 2 = 1 := by omega
      norm_num [Spec.sqDiff, Spec.power, striped, h, h']
    · have h' : p.2 % 2 = 0 := by omega
      norm_num [Spec.sqDiff, Spec.power, striped, h, h']
  have hgood : (Spec.periodicPairs 4 4 0 1).filter
      (fun pq => Spec.power striped pq.1 + Spec.power striped pq.2 ≠ 0) = Spec.periodicPairs 4 4 0 1 :=
    Finset.filter_true_of_mem (fun pq h => (hval pq h).2)
  have hmem : ((0, 1), (0, 0)) ∈ Spec.periodicPairs 4 4 0 1 := by decide
  have hne : Spec.periodicPairs 4 4 0 1 ≠ ∅ := Finset.ne_empty_of_mem hmem
  refine ⟨1 - Real.sqrt (1 / 5), ?_, ?_⟩
  · unfold Spec.scf
    simp only
    have e : (Spec.periodicPairs 4 4 0 1).filter
      (fun pq => Spec.power striped pq.1 + Spec.power striped pq.2 ≠ 0) = Spec.periodicPairs 4 4 0 1 := hgood
    have hc : ((Spec.periodicPairs 4 4 0 1).card : ℝ) ≠ 0 := by
      exact_mod_cast (Finset.card_ne_zero_of_mem hmem)
    simp only [e, if_neg hne, Option.some.injEq]
    rw [Finset.sum_congr rfl (fun pq h => (hval pq h).1), Finset.sum_const, nsmul_eq_mul]
    rw [mul_comm, mul_div_assoc, div_self hc, mul_one]
  · have : 0 < Real.sqrt (1 / 5) := Real.sqrt_pos.2 (by norm_num)
    linarith

/-- Assigning new lags after the surface was computed: `compute_spectrum` reports the old values at the new
lags.  For a striped map and lags -4, -2, 0, 2, 4 it reports a correlation below 1, a new object with these lags
reports 1 everywhere. -/
theorem C87_stale_violated : ∃ (data : Arr3 (Option ℝ)) (l : Arr1 ℝ) (o1 o2 o3 : ScfObj), LagGrid l 2 ∧
    (scfObjInit 5 none).computeSpectrum data {} = .ok o1 ∧ (o1.setLags l 1).computeSpectrum data {} = .ok o2 ∧
    (scfObjInit 5 (some (l, 1))).computeSpectrum data {} = .ok o3 ∧
    (∀ k, o2.lags.get k = 2 * o1.lags.get k) ∧ o2.spectrum = o1.spectrum ∧
    (∃ k v, o2.spectrum.get k = some v ∧ v < 1) ∧ ∀ k v, o3.spectrum.get k = some v → v = 1 := by
  have hgl : LagGrid ⟨5, fun k => ((k : ℝ) - 2) * 2⟩ 2 := ⟨rfl, by norm_num, by norm_num, fun k _ => by norm_num⟩
  obtain ⟨hg1, hf1⟩ := (C87_init striped).1 5 (by norm_num)
  obtain ⟨hg3, hf3⟩ := (C87_init striped).2 5 ⟨5, fun k => ((k : ℝ) - 2) * 2⟩ 1 2 hgl
  obtain ⟨o1, h1⟩ := C87_completes _ striped {} 1 hg1 hf1 (Or.inl rfl)
  obtain ⟨o3, h3⟩ := C87_completes _ striped {} 2 hg3 hf3 (Or.inl rfl)
  obtain ⟨s, out, d, hs, hor, hp, hu, hd, e1, e2, e3, e4, e5, e6⟩ := spectrum_ok h1
  have hgs : LagGrid (o1.setLags ⟨5, fun k => ((k : ℝ) - 2) * 2⟩ 1).rollLags 2 := hgl
  have h2 := spectrum_mk (o := o1.setLags ⟨5, fun k => ((k : ℝ) - 2) * 2⟩ 1) (data := striped) (Or.inl hs) hp hu
    (lagDiff_grid hgs)
  rw [lagDiff_grid hg1] at hd
  simp only [Except.ok.injEq] at hd
  refine ⟨striped, _, o1, _, o3, hgl, h1, h2, h3, ?_, e2.symm, ?_, ?_⟩
  · intro k
    rw [e1, ← hd]
    show out.binCents.get k * |2| = 2 * (out.binCents.get k * |1|)
    norm_num
    ring
  · -- the entry at lag (0, 1)
    have hn5 : (scfObjInit 5 none).rollLags.n = 5 := rfl
    have hsur : scfSurface "continuous" striped ((scfDefaultLags 5).map (fun k : ℤ => (k : ℝ))) = .ok s := by
      rcases hor with h | ⟨-, h⟩
      · simp [scfObjInit] at h
      · have hpl : (scfObjInit 5 none).pixLags = (scfDefaultLags 5).map (fun k : ℤ => (k : ℝ)) := by
          simp [ScfObj.pixLags, scfObjInit, Arr1.map]
        rw [hpl] at h
        rw [← surfaceIn_eq]
        exact h
    obtain ⟨s', hs', sn, sm, hval⟩ := C25_surface_values striped (scfDefaultLags 5)
    rw [hs'] at hsur
    cases hsur
    obtain ⟨r, hr, hr1⟩ := striped_odd
    have v32 : s.get 3 2 = some r := by
      rw [hval 3 (by decide) 2 (by decide), ← hr]
      rfl
    have v12 : s.get 1 2 = some r := by
      have := C25_default_lags_symmetric striped 5 s hs' 2 3 (by decide) (by decide)
      rw [← v32, ← this]
      rfl
    have sn5 : s.n = 5 := sn
    have sm5 : s.m = 5 := sm
    obtain ⟨q1, q2, q3, q4, q5, q6, q7, q8⟩ := edges0 (n := 5) (by norm_num) sn5 sm5 {} rfl (by norm_num) rfl rfl hp
    obtain ⟨k, hk, hmem⟩ := bin_of (j := 3) (i := 2) q1 q2 q3 q4 sn5 sm5 (by norm_num) (by norm_num)
      (by norm_num [pixRadius]) (by rw [v32]; simp)
    have hmem' : (1, 2) ∈ binPixels s none out.edges false k := by
      simp only [binPixels, mem_filter, mem_product, mem_range] at hmem ⊢
      refine ⟨⟨by omega, by omega⟩, by rw [v12]; simp, by simp, ?_⟩
      have : binRadius false s.n s.m 1 2 = binRadius false s.n s.m 3 2 := by
        simp [binRadius, pixRadius, sn5, sm5]; norm_num
      rw [this]
      exact hmem.2.2.2
    have hcard : ¬ (binPixels s none out.edges false k).card ≤ 1 := by
      rw [not_le, Finset.one_lt_card]
      exact ⟨_, hmem, _, hmem', by simp⟩
    refine ⟨k, pixMean (binPixels s none out.edges false k) (fun p => (s.get p.1 p.2).getD 0), ?_, ?_⟩
    · show out.ps1D.get k = _
      rw [q8 k, azim_none rfl hp, if_neg hcard]
    · unfold pixMean
      have hpos : (0 : ℝ) < (binPixels s none out.edges false k).card := by
        have : 0 < (binPixels s none out.edges false k).card := by omega
        exact_mod_cast this
      rw [div_lt_one hpos, Finset.card_eq_sum_ones, Nat.cast_sum]
      have hle : ∀ p ∈ binPixels s none out.edges false k, (s.get p.1 p.2).getD 0 ≤ ((1 : ℕ) : ℝ) := by
        intro p hpm
        simp only [binPixels, mem_filter, mem_product, mem_range] at hpm
        rw [hval p.1 (by omega) p.2 (by omega)]
        cases hh : Spec.scf striped (Spec.periodicPairs striped.m striped.p ((scfDefaultLags 5).get p.2)
            ((scfDefaultLags 5).get p.1)) with
        | none => simp
        | some x => simpa using spec_scf_le _ _ _ hh
      exact Finset.sum_lt_sum hle ⟨(3, 2), hmem, by simpa [v32] using hr1⟩
  · intro k v hv
    obtain ⟨s3, out3, d3, hs3, sn3, sm3, hp3, -, -, f2, -⟩ := surface_of hf3 h3
    obtain ⟨s3', -, -, hs3', hor3, -⟩ := spectrum_ok h3
    rw [hs3] at hs3'
    simp only [Option.some.injEq] at hs3'
    subst hs3'
    have hsur : scfSurface "continuous" striped ((⟨5, fun k => ((k : ℤ) - 2) * 2⟩ : Arr1 ℤ).map (fun k : ℤ => (k : ℝ)))
        = .ok s3 := by
      rcases hor3 with h | ⟨-, h⟩
      · simp [scfObjInit] at h
      · have hpl : (scfObjInit 5 (some (⟨5, fun k => ((k : ℝ) - 2) * 2⟩, 1))).pixLags =
            (⟨5, fun k => ((k : ℤ) - 2) * 2⟩ : Arr1 ℤ).map (fun k : ℤ => (k : ℝ)) := by
          simp [ScfObj.pixLags, scfObjInit, Arr1.map, scfGivenLags]
        rw [hpl] at h
        rw [← surfaceIn_eq]
        exact h
    obtain ⟨s', hs', sn, sm, hval⟩ := C25_surface_values striped ⟨5, fun k => ((k : ℤ) - 2) * 2⟩
    rw [hs'] at hsur
    cases hsur
    have hn5 : s3.n = 5 := sn
    have hm5 : s3.m = 5 := sm
    obtain ⟨q1, q2, q3, q4, q5, q6, q7, q8⟩ := edges0 (n := 5) (by norm_num) hn5 hm5 {} rfl (by norm_num) rfl rfl hp3
    rw [f2] at hv
    have := C05_value_between s3 _ out3 (by omega) (by omega) (by omega) hp3 q1 q2 k 1 1 v hv (by
      intro p hpm x hx
      simp only [binPixels, mem_filter, mem_product, mem_range] at hpm
      have h1 := hval p.1 (by show p.1 < 5; omega) p.2 (by show p.2 < 5; omega)
      rw [hx] at h1
      have := striped_even _ _ (by show (((p.1 : ℤ) - 2) * 2) % 2 = 0; omega) x h1.symm
      exact ⟨this.ge, this.le⟩)
    linarith [this.1, this.2]

/-- **C87 (the model).** The fitted model is the power law of the fit, `10^a` at a lag of one pixel, and at the
lags of a spectrum that follows the fit exactly it is the spectrum. -/
theorem C87_model (a b u x : ℝ) (hu : 0 < u) (hx : 0 < x) :
    scfFittedModel a b u x = (10 : ℝ) ^ a * (u * x) ^ b ∧
    ∀ y, 0 < y → log10 y = a + b * log10 (u * x) → scfFittedModel a b u x = y := by
  have h10 : (0 : ℝ) < 10 := by norm_num
  have hux : 0 < u * x := mul_pos hu hx
  constructor
  · unfold scfFittedModel log10
    rw [Real.rpow_add h10, mul_comm b, Real.rpow_mul h10.le, Real.rpow_logb h10 (by norm_num) hux]
  · intro y hy h
    unfold scfFittedModel
    rw [← h]
    unfold log10
    exact Real.rpow_logb h10 (by norm_num) hy

/-- The model is documented to return the logarithm of the spectrum; it never does. -/
theorem C87_model_violated (a b u x : ℝ) : scfFittedModel a b u x ≠ a + b * log10 (u * x) := by
  unfold scfFittedModel
  generalize a + b * log10 (u * x) = t
  intro h
  have h1 : (10 : ℝ) ^ t = Real.exp (Real.log 10 * t) := by
    rw [Real.rpow_def_of_pos (by norm_num)]
  have hpos : 0 < t := by rw [← h]; positivity
  have hlog : 1 ≤ Real.log 10 := by
    have h2 := Real.one_sub_inv_le_log_of_pos (x := 2) (by norm_num)
    have h4 : Real.log 4 = 2 * Real.log 2 := by
      rw [show (4 : ℝ) = 2 ^ 2 by norm_num, Real.log_pow]; norm_num
    have := Real.log_le_log (x := 4) (y := 10) (by norm_num) (by norm_num)
    linarith
  have := Real.add_one_le_exp (Real.log 10 * t)
  nlinarith

/-- Non-vacuity: five default lags and a 1×2×2 cube. -/
example : ∃ o', (scfObjInit 5 none).computeSpectrum ⟨1, 2, 2, fun _ i j => some ((i : ℝ) + 2 * j + 1)⟩ {} = .ok o' :=
  have h := (C87_init ⟨1, 2, 2, fun _ i j => some ((i : ℝ) + 2 * j + 1)⟩).1 5 (by norm_num)
  C87_completes _ _ {} 1 h.1 h.2 (Or.inl rfl)

end TS
