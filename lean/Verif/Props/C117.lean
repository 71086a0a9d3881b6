import Verif.Spec.FftOptions

/-! # C117: the library of the Fourier transforms, its options, and the old names -/

namespace TS
open Spec

/-! ### lemmas -/

private theorem kwGet_none {kw : KwArgs} {n : String} (h : n ∉ kw.map (·.1)) : kwGet kw n = none := by
  induction kw with
  | nil => rfl
  | cons p t ih =>
    obtain ⟨k, v⟩ := p
    simp only [List.map_cons, List.mem_cons, not_or] at h
    simp only [kwGet, if_neg (Ne.symm h.1), ih h.2]

private theorem kwGet_mem {kw : KwArgs} {n : String} {v : OVal} (h : kwGet kw n = some v) : (n, v) ∈ kw := by
  induction kw with
  | nil => simp [kwGet] at h
  | cons p t ih =>
    obtain ⟨k, w⟩ := p
    simp only [kwGet] at h
    split at h
    · next hk => subst hk; cases h; simp
    · exact List.mem_cons_of_mem _ (ih h)

private theorem not_mem_of_kwGet {kw : KwArgs} {n : String} (h : kwGet kw n = none) : n ∉ kw.map (·.1) := by
  induction kw with
  | nil => simp
  | cons p t ih =>
    obtain ⟨k, w⟩ := p
    simp only [kwGet] at h
    split at h
    · cases h
    · next hk => simp only [List.map_cons, List.mem_cons, not_or]; exact ⟨Ne.symm hk, ih h⟩

private theorem filter_self_of {kw : KwArgs} {n : String} (h : n ∉ kw.map (·.1)) : kwWithout kw n = kw := by
  refine List.filter_eq_self.mpr fun p hp => ?_
  simp only [decide_eq_true_eq]
  rintro rfl
  exact h (List.mem_map_of_mem hp)

private theorem dropThreads_eq {kw : KwArgs} (h : ForFftw kw) : dropThreads kw = kwWithout kw "threads" := by
  unfold dropThreads
  cases hg : kwGet kw "threads" with
  | none => exact (filter_self_of (not_mem_of_kwGet hg)).symm
  | some v =>
    cases v with
    | none => exact absurd (kwGet_mem hg) h.2.2.2.2
    | _ => rfl

private theorem without_names {kw : KwArgs} {n m : String} (h : m ∉ kw.map (·.1)) : m ∉ (kwWithout kw n).map (·.1) := by
  intro hm
  obtain ⟨p, hp, rfl⟩ := List.mem_map.mp hm
  exact h (List.mem_map_of_mem (List.mem_of_mem_filter hp))

private theorem without_not {kw : KwArgs} {n : String} : n ∉ (kwWithout kw n).map (·.1) := by
  intro hm
  obtain ⟨p, hp, rfl⟩ := List.mem_map.mp hm
  have := (List.mem_filter.mp hp).2
  simp at this

private theorem without_nodup {kw : KwArgs} (n : String) (h : (kw.map (·.1)).Nodup) : ((kwWithout kw n).map (·.1)).Nodup :=
  h.sublist (List.Sublist.map _ List.filter_sublist)

/-- `rfft_to_fft` with the plain transform. -/
private theorem plain (image : NdArr ℝ) (keep : Bool) (h : ∀ n, image ≠ .other n) :
    (match npRfftn image with
      | .ok r => afterRfft image keep r
      | .error e => .error e) = rfftToFft image keep := by
  cases image with
  | other n => exact absurd rfl (h n)
  | d2 a =>
    simp only [npRfftn, rfftToFft]
    cases rfftn2 a with
    | error e => rfl
    | ok r =>
      simp only [Except.map, afterRfft, bind, Except.bind, pure, Except.pure]
  | d3 a =>
    simp only [npRfftn, rfftToFft]
    cases rfftn3 a with
    | error e => rfl
    | ok r =>
      simp only [Except.map, afterRfft, bind, Except.bind, pure, Except.pure]

/-- The arguments `rfft_to_fft` sees. -/
private theorem bound_rfft (o : FftOpts) (h : ForFftw o.kw) :
    bindKw sigRfft o.forRfft = .ok ⟨[("keep_rfft", .bool false), ("use_pyfftw", o.usePyfftw), ("threads", o.threads)], kwWithout o.kw "threads"⟩ ∧
    bindKw sigRfft o.forVcs = .ok ⟨[("keep_rfft", .bool false), ("use_pyfftw", o.usePyfftw), ("threads", o.threads)], kwWithout o.kw "threads"⟩ ∧
    kwGet o.forRfft "image" = none ∧ kwGet o.forVcs "image" = none := by
  have h1 := without_nodup "threads" h.1
  have h2 : "image" ∉ (kwWithout o.kw "threads").map (·.1) := without_names h.2.1
  have h3 : "keep_rfft" ∉ (kwWithout o.kw "threads").map (·.1) := without_names h.2.2.1
  have h4 : "use_pyfftw" ∉ (kwWithout o.kw "threads").map (·.1) := without_names h.2.2.2.1
  have h5 : "threads" ∉ (kwWithout o.kw "threads").map (·.1) := without_not
  simp only [FftOpts.forRfft, FftOpts.forVcs, dropThreads_eq h]
  generalize kwWithout o.kw "threads" = kw at *
  have hf : kw.filter (fun p => !(sigRfft.names.contains p.1)) = kw := by
    refine List.filter_eq_self.mpr fun p hp => ?_
    have hp' := List.mem_map_of_mem (f := (·.1)) hp
    simp only [sigRfft, Sig.names, List.map_cons, List.map_nil, Bool.not_eq_true', List.contains_eq_mem, decide_eq_false_iff_not,
      List.mem_cons, List.not_mem_nil, or_false, not_or]
    exact ⟨fun e => h3 (e ▸ hp'), fun e => h4 (e ▸ hp'), fun e => h5 (e ▸ hp')⟩
  have hget : ∀ n, n ∉ kw.map (·.1) → kwGet kw n = none := fun n hn => kwGet_none hn
  refine ⟨?_, ?_, ?_, ?_⟩
  · unfold bindKw
    rw [if_neg, if_neg]
    · rw [List.filter_append, hf]
      simp [sigRfft, kwGet, hget _ h3, Sig.names]
    · simp [sigRfft]
    · simp only [not_not, List.map_append, List.map_cons, List.map_nil]
      simp only [List.cons_append, List.nil_append, List.nodup_cons, List.mem_cons, not_or]
      exact ⟨⟨by decide, h4⟩, h5, h1⟩
  · unfold bindKw
    rw [if_neg, if_neg]
    · rw [List.filter_append, hf]
      simp [sigRfft, kwGet, Sig.names]
    · simp [sigRfft]
    · simp only [not_not, List.map_append, List.map_cons, List.map_nil]
      simp only [List.cons_append, List.nil_append, List.nodup_cons, List.mem_cons, not_or]
      exact ⟨⟨by decide, by decide, h4⟩, ⟨by decide, h3⟩, h5, h1⟩
  · simp [kwGet, hget _ h2]
  · simp [kwGet, hget _ h2]

/-- What one call of `rfft_to_fft` does. -/
private theorem one_call (lib : Option Fftw) (image : NdArr ℝ) (him : ∀ n, image ≠ .other n) (o : FftOpts) (kw : KwArgs)
    (hb : bindKw sigRfft kw = .ok ⟨[("keep_rfft", .bool false), ("use_pyfftw", o.usePyfftw), ("threads", o.threads)], kwWithout o.kw "threads"⟩)
    (hi : kwGet kw "image" = none) (hL : SameRfftn lib (kwWithout o.kw "threads")) :
    (rfftToFftOpts lib image kw).res = rfftToFft image ∧ (rfftToFftOpts lib image kw).warned = dueWarnings lib o 1 ∧
    (rfftToFftOpts lib image kw).calls =
      [if o.usePyfftw.truthy = true ∧ lib.isSome = true then ⟨.pyfftw, kwWithout o.kw "threads"⟩ else ⟨.numpy, []⟩] := by
  have hstep : (rfftStep lib image ⟨[("keep_rfft", .bool false), ("use_pyfftw", o.usePyfftw), ("threads", o.threads)],
      kwWithout o.kw "threads"⟩) = ⟨[if o.usePyfftw.truthy = true ∧ lib.isSome = true then ⟨.pyfftw, kwWithout o.kw "threads"⟩ else ⟨.numpy, []⟩],
        dueWarnings lib o 1, npRfftn image⟩ := by
    simp only [rfftStep, kwGet, dueWarnings]
    cases hu : o.usePyfftw.truthy with
    | false => simp [hu]
    | true =>
      cases lib with
      | none => simp [hu]
      | some L => simp [hu, hL L rfl]
  have hmain : rfftToFftOpts lib image kw = (rfftStep lib image ⟨[("keep_rfft", .bool false), ("use_pyfftw", o.usePyfftw),
      ("threads", o.threads)], kwWithout o.kw "threads"⟩).andThen fun r => .of (afterRfft image false r) := by
    unfold rfftToFftOpts
    rw [hi, if_neg (by simp), hb]
    cases image with
    | other n => exact absurd rfl (him n)
    | d2 a => simp [kwGet, OVal.truthy]
    | d3 a => simp [kwGet, OVal.truthy]
  rw [hmain, hstep, ← plain image false him]
  simp only [FftRun.andThen]
  cases npRfftn image with
  | error e => exact ⟨rfl, rfl, rfl⟩
  | ok r => exact ⟨rfl, rfl, by simp [FftRun.of]⟩

private theorem rfft_call (lib : Option Fftw) (image : NdArr ℝ) (him : ∀ n, image ≠ .other n) (o : FftOpts) (h : ForFftw o.kw)
    (hL : SameRfftn lib (kwWithout o.kw "threads")) :
    (rfftToFftOpts lib image o.forRfft).res = rfftToFft image ∧ (rfftToFftOpts lib image o.forRfft).warned = dueWarnings lib o 1 ∧
    (rfftToFftOpts lib image o.forRfft).calls =
      [if o.usePyfftw.truthy = true ∧ lib.isSome = true then ⟨.pyfftw, kwWithout o.kw "threads"⟩ else ⟨.numpy, []⟩] :=
  one_call lib image him o _ (bound_rfft o h).1 (bound_rfft o h).2.2.1 hL

/-! ### the power spectra -/

/-- **C117, spatial power spectrum.** Whether pyfftw is installed, whether it is asked for, the number of threads and the options for
pyfftw do not change the result: it is that of numpy.  The library is called once, with the options given (except a number of threads);
without pyfftw there is one warning. -/
theorem C117_pspec (lib : Option Fftw) (data : Arr2 ℝ) (apod : Option ApodArgs) (o : FftOpts) (h : ForFftw o.kw)
    (hL : SameRfftn lib (kwWithout o.kw "threads")) :
    (pspecOpts lib data apod o).res = computePspec data apod ∧
    (∀ r, (pspecOpts lib data apod o).res = .ok r → (pspecOpts lib data apod o).warned = dueWarnings lib o 1 ∧
      (pspecOpts lib data apod o).calls =
        [if o.usePyfftw.truthy = true ∧ lib.isSome = true then ⟨.pyfftw, kwWithout o.kw "threads"⟩ else ⟨.numpy, []⟩]) := by
  have hc : computePspec data apod = (apodized2 data apod >>= fun d => rfftToFft (.d2 d) >>= fun f =>
      match f with
      | .d2 f => .ok (f.fftshift.map (fun x => x ^ 2))
      | _ => .error .typeError) := by
    cases apod with
    | none => rfl
    | some k =>
      simp only [computePspec, apodized2, bind, Except.bind, pure, Except.pure]
      cases apodizingKernel k.kernelType k.alpha k.beta [data.n, data.m] with
      | error e => rfl
      | ok w => cases mul2 data w with
        | error e => rfl
        | ok d => rfl
  rw [hc]
  unfold pspecOpts
  generalize apodized2 data apod = d
  cases d with
  | error e => exact ⟨rfl, fun r hr => by cases hr⟩
  | ok d =>
    obtain ⟨h1, h2, h3⟩ := rfft_call lib (.d2 d) (by simp) o h hL
    simp only [FftRun.of, FftRun.andThen, h1, h2, h3, bind, Except.bind]
    cases rfftToFft (.d2 d) with
    | error e => exact ⟨rfl, fun r hr => by cases hr⟩
    | ok f => cases f <;> exact ⟨rfl, fun r hr => by simp⟩

/-- **C117, VCA.** -/
theorem C117_vca (lib : Option Fftw) (data : Arr3 ℝ) (apod : Option ApodArgs) (o : FftOpts) (h : ForFftw o.kw)
    (hL : SameRfftn lib (kwWithout o.kw "threads")) :
    (vcaOpts lib data apod o).res = vcaComputePspec data apod ∧
    (∀ r, (vcaOpts lib data apod o).res = .ok r → (vcaOpts lib data apod o).warned = dueWarnings lib o 1 ∧
      (vcaOpts lib data apod o).calls =
        [if o.usePyfftw.truthy = true ∧ lib.isSome = true then ⟨.pyfftw, kwWithout o.kw "threads"⟩ else ⟨.numpy, []⟩]) := by
  have hc : vcaComputePspec data apod = (apodized3 data apod >>= fun d => rfftToFft (.d3 d) >>= fun f =>
      match f with
      | .d3 f =>
        let sq := f.fftshift.map (fun x => x ^ 2)
        .ok ⟨sq.m, sq.p, fun i j => ∑ a ∈ Finset.range sq.n, sq.get a i j⟩
      | _ => .error .typeError) := by
    cases apod with
    | none => rfl
    | some k =>
      simp only [vcaComputePspec, apodized3, bind, Except.bind, pure, Except.pure]
      cases apodizingKernel k.kernelType k.alpha k.beta [data.n, data.m, data.p] with
      | error e => rfl
      | ok w => cases mul32 data w with
        | error e => rfl
        | ok d => rfl
  rw [hc]
  unfold vcaOpts
  generalize apodized3 data apod = d
  cases d with
  | error e => exact ⟨rfl, fun r hr => by cases hr⟩
  | ok d =>
    obtain ⟨h1, h2, h3⟩ := rfft_call lib (.d3 d) (by simp) o h hL
    simp only [FftRun.of, FftRun.andThen, h1, h2, h3, bind, Except.bind]
    cases rfftToFft (.d3 d) with
    | error e => exact ⟨rfl, fun r hr => by cases hr⟩
    | ok f => cases f <;> exact ⟨rfl, fun r hr => by simp⟩

/-- **C117, VCS.** -/
theorem C117_vcs (lib : Option Fftw) (cube : Arr3 (Option ℝ)) (o : FftOpts) (h : ForFftw o.kw)
    (hL : SameRfftn lib (kwWithout o.kw "threads")) :
    (vcsOpts lib cube o).res = vcsComputePspec cube ∧
    (vcsOpts lib cube o).warned = dueWarnings lib o 1 ∧
    (vcsOpts lib cube o).calls =
      [if o.usePyfftw.truthy = true ∧ lib.isSome = true then ⟨.pyfftw, kwWithout o.kw "threads"⟩ else ⟨.numpy, []⟩] := by
  unfold vcsOpts vcsComputePspec
  obtain ⟨h1, h2, h3⟩ := one_call lib (.d3 (vcsInit cube).2) (by simp) o _ (bound_rfft o h).2.1 (bound_rfft o h).2.2.2 hL
  simp only [FftRun.of, FftRun.andThen, h1, h2, h3, bind, Except.bind]
  cases rfftToFft (.d3 (vcsInit cube).2) with
  | error e => exact ⟨rfl, rfl, rfl⟩
  | ok f => cases f <;> exact ⟨rfl, rfl, by simp⟩

private theorem rfftO_call (lib : Option Fftw) (a : Arr2 (Option ℝ)) (o : FftOpts) (h : ForFftw o.kw)
    (hL : SameRfftn lib (kwWithout o.kw "threads")) :
    (rfftToFftOptsO lib a o.forRfft).res = rfftToFftO a ∧ (rfftToFftOptsO lib a o.forRfft).warned = dueWarnings lib o 1 ∧
    (rfftToFftOptsO lib a o.forRfft).calls =
      [if o.usePyfftw.truthy = true ∧ lib.isSome = true then ⟨.pyfftw, kwWithout o.kw "threads"⟩ else ⟨.numpy, []⟩] := by
  unfold rfftToFftOptsO rfftToFftO
  obtain ⟨h1, h2, h3⟩ := rfft_call lib (.d2 (fillNan 0 a)) (by simp) o h hL
  simp only [FftRun.of, FftRun.andThen, h1, h2, h3, bind, Except.bind]
  cases rfftToFft (.d2 (fillNan 0 a)) with
  | error e => exact ⟨rfl, rfl, rfl⟩
  | ok f => cases f <;> exact ⟨rfl, rfl, by simp⟩

/-- **C117, MVC**: two transforms, and two warnings without pyfftw. -/
theorem C117_mvc (lib : Option Fftw) (t : Arr2 (Option ℝ) × Arr2 (Option ℝ) × Arr2 (Option ℝ)) (o : FftOpts) (h : ForFftw o.kw)
    (hL : SameRfftn lib (kwWithout o.kw "threads")) :
    (mvcOpts lib t o).res = mvcSpectrum t ∧
    (∀ r, (mvcOpts lib t o).res = .ok r → (mvcOpts lib t o).warned = dueWarnings lib o 2 ∧
      (mvcOpts lib t o).calls = List.replicate 2
        (if o.usePyfftw.truthy = true ∧ lib.isSome = true then ⟨.pyfftw, kwWithout o.kw "threads"⟩ else ⟨.numpy, []⟩)) := by
  unfold mvcOpts mvcSpectrum
  obtain ⟨h1, h2, h3⟩ := rfftO_call lib t.1 o h hL
  obtain ⟨k1, k2, k3⟩ := rfftO_call lib t.2.2 o h hL
  simp only [FftRun.of, FftRun.andThen, h1, h2, h3, k1, k2, k3, bind, Except.bind]
  cases rfftToFftO t.1 with
  | error e => exact ⟨rfl, fun r hr => by cases hr⟩
  | ok f =>
    cases rfftToFftO t.2.2 with
    | error e => exact ⟨rfl, fun r hr => by cases hr⟩
    | ok g =>
      refine ⟨rfl, fun r hr => ⟨?_, by simp [List.replicate]⟩⟩
      simp only [dueWarnings]
      split_ifs <;> rfl

/-- **C117, bispectrum**: here the number of threads asked for reaches pyfftw. -/
theorem C117_bispec (lib : Option Fftw) (img : Arr2 ℝ) (meanSubtract : Bool) (o : FftOpts) (h : ForFftw o.kw)
    (hL : SameFft2 lib (("threads", o.threads) :: kwWithout o.kw "threads")) :
    (bispecFftOpts lib img meanSubtract o).res = .ok (bispecFft img meanSubtract) ∧
    (bispecFftOpts lib img meanSubtract o).warned = dueWarnings lib o 1 ∧
    (bispecFftOpts lib img meanSubtract o).calls =
      [if o.usePyfftw.truthy = true ∧ lib.isSome = true then ⟨.pyfftw, ("threads", o.threads) :: kwWithout o.kw "threads"⟩ else ⟨.numpy, []⟩] := by
  unfold bispecFftOpts
  rw [dropThreads_eq h, kwGet_none (without_not (kw := o.kw) (n := "threads"))]
  simp only [dueWarnings]
  cases hu : o.usePyfftw.truthy with
  | false => simp
  | true =>
    cases lib with
    | none => simp
    | some L =>
      rw [if_pos rfl]
      refine ⟨?_, by simp, by simp⟩
      simp only [Option.isSome_none, Bool.false_eq_true, if_false, hL L rfl]
      cases meanSubtract <;> rfl

/-- Non-vacuity: a pyfftw that computes the transforms of numpy whatever its options, asked for with two options. -/
example : ∃ (L : Fftw) (o : FftOpts), ForFftw o.kw ∧ o.usePyfftw.truthy = true ∧ SameRfftn (some L) (kwWithout o.kw "threads") ∧
    SameFft2 (some L) (("threads", o.threads) :: kwWithout o.kw "threads") ∧ kwWithout o.kw "threads" = [("planner_effort", .str "FFTW_ESTIMATE")] := by
  refine ⟨⟨fun _ => npRfftn, fun _ d => .ok ⟨d.n, d.m, fun k l => dft2 d.n d.m (fun i j => (d.get i j : ℂ)) k l⟩⟩,
    ⟨.bool true, .num 4, [("planner_effort", .str "FFTW_ESTIMATE"), ("threads", .num 8)]⟩, ?_, rfl, ?_, ?_, ?_⟩
  · simp [ForFftw]
  · rintro L ⟨⟩ image; rfl
  · rintro L ⟨⟩ d; rfl
  · simp [kwWithout]

/-! ### the number of threads -/

private theorem rfft_no_threads (lib : Option Fftw) (image : NdArr ℝ) (kw : KwArgs) :
    ∀ c ∈ (rfftToFftOpts lib image kw).calls, kwGet c.kw "threads" = none := by
  unfold rfftToFftOpts
  split
  · simp [FftRun.of]
  · cases hb : bindKw sigRfft kw with
    | error e => simp [FftRun.of]
    | ok b =>
      have hex : kwGet b.extra "threads" = none := by
        unfold bindKw at hb
        split_ifs at hb
        cases hb
        refine kwGet_none fun hm => ?_
        obtain ⟨p, hp, he⟩ := List.mem_map.mp hm
        have := (List.mem_filter.mp hp).2
        rw [he] at this
        simp [sigRfft, Sig.names] at this
      have hst : ∀ image, ∀ c ∈ (rfftStep lib image b).calls, kwGet c.kw "threads" = none := by
        intro image c hc
        unfold rfftStep at hc
        split_ifs at hc
        · cases lib with
          | none => simp only [List.mem_singleton] at hc; subst hc; rfl
          | some L => simp only [List.mem_singleton] at hc; subst hc; exact hex
        · simp only [List.mem_singleton] at hc; subst hc; rfl
      cases image with
      | other n => simp [FftRun.of]
      | d2 a =>
        simp only [FftRun.andThen, FftRun.of]
        cases hr : (rfftStep lib (.d2 a) b).res <;> simpa using hst _
      | d3 a =>
        simp only [FftRun.andThen, FftRun.of]
        cases hr : (rfftStep lib (.d3 a) b).res <;> simpa using hst _

private theorem andThen_calls {α β : Type} {x : FftRun α} {f : α → FftRun β} {P : FftCall → Prop} (hx : ∀ c ∈ x.calls, P c)
    (hf : ∀ a, ∀ c ∈ (f a).calls, P c) : ∀ c ∈ (x.andThen f).calls, P c := by
  intro c hc
  unfold FftRun.andThen at hc
  cases hr : x.res with
  | error e => rw [hr] at hc; exact hx c hc
  | ok a =>
    rw [hr] at hc
    rcases List.mem_append.mp hc with h | h
    · exact hx c h
    · exact hf a c h

/-- **C117, violation.** "Number of threads to use in FFT when using pyfftw": in the power spectrum, VCA, VCS and MVC no number of
threads, however it is given, reaches a transform; in the wavelet transform and the delta-variance no option at all does. -/
theorem C117_threads_violated (lib : Option Fftw) (o : FftOpts) :
    (∀ data apod, ∀ c ∈ (pspecOpts lib data apod o).calls, kwGet c.kw "threads" = none) ∧
    (∀ data apod, ∀ c ∈ (vcaOpts lib data apod o).calls, kwGet c.kw "threads" = none) ∧
    (∀ cube, ∀ c ∈ (vcsOpts lib cube o).calls, kwGet c.kw "threads" = none) ∧
    (∀ t, ∀ c ∈ (mvcOpts lib t o).calls, kwGet c.kw "threads" = none) ∧
    (∀ n m, ∀ c ∈ (waveletCalls lib n m o).calls, c.kw = []) ∧
    (∀ n m, ∀ c ∈ (deltaCalls lib n m o).calls, c.kw = []) := by
  have hO : ∀ a, ∀ c ∈ (rfftToFftOptsO lib a o.forRfft).calls, kwGet c.kw "threads" = none := fun a =>
    andThen_calls (rfft_no_threads _ _ _) (by simp [FftRun.of])
  refine ⟨fun data apod => ?_, fun data apod => ?_, fun cube => ?_, fun t => ?_, fun n m c hc => ?_, fun n m => ?_⟩
  · exact andThen_calls (by simp [FftRun.of]) fun d => andThen_calls (rfft_no_threads _ _ _) (by simp [FftRun.of])
  · exact andThen_calls (by simp [FftRun.of]) fun d => andThen_calls (rfft_no_threads _ _ _) (by simp [FftRun.of])
  · exact andThen_calls (rfft_no_threads _ _ _) (by simp [FftRun.of])
  · exact andThen_calls (hO _) fun d => andThen_calls (hO _) (by simp [FftRun.of])
  · rw [(List.mem_replicate.mp hc).2]
  · induction n with
    | zero => simp [deltaCalls, FftRun.of]
    | succ n ih =>
      refine andThen_calls (fun c hc => ?_) fun _ => ih
      rw [(List.mem_replicate.mp hc).2]

/-- Non-vacuity: the transforms are called (a power spectrum of a 2 by 2 image with pyfftw and four threads). -/
example : ∃ (L : Fftw) (o : FftOpts), o.threads = .num 4 ∧
    (pspecOpts (some L) ⟨2, 2, fun _ _ => 1⟩ none o).calls = [⟨.pyfftw, []⟩] := by
  refine ⟨⟨fun _ => npRfftn, fun _ _ => .error .valueError⟩, ⟨.bool true, .num 4, []⟩, rfl, ?_⟩
  simp [pspecOpts, apodized2, FftRun.of, FftRun.andThen, rfftToFftOpts, FftOpts.forRfft, dropThreads, kwGet, bindKw, sigRfft, Sig.names,
    rfftStep, OVal.truthy, npRfftn, rfftn2, Except.map, afterRfft]
  split <;> rfl

/-- **C117, convolutions.** The library of the wavelet transform and the delta-variance is pyfftw exactly when it is asked for and
installed; without it there is one warning per transform of the image set and four per lag. -/
theorem C117_convolutions (lib : Option Fftw) (o : FftOpts) (n m : ℕ) :
    (∀ c ∈ (waveletCalls lib n m o).calls, c.lib = .pyfftw ↔ o.usePyfftw.truthy = true ∧ lib.isSome = true) ∧
    (waveletCalls lib n m o).calls.length = n * m ∧ (waveletCalls lib n m o).warned = dueWarnings lib o 1 ∧
    (∀ c ∈ (deltaCalls lib n m o).calls, c.lib = .pyfftw ↔ o.usePyfftw.truthy = true ∧ lib.isSome = true) ∧
    (deltaCalls lib n m o).calls.length = 4 * (n * m) ∧ (deltaCalls lib n m o).warned = dueWarnings lib o (4 * n) := by
  have hpick : pickFft lib.isSome o.usePyfftw.truthy = .pyfftw ↔ o.usePyfftw.truthy = true ∧ lib.isSome = true := by
    cases o.usePyfftw.truthy <;> cases lib <;> simp [pickFft]
  refine ⟨fun c hc => ?_, by simp [waveletCalls], ?_, ?_, ?_, ?_⟩
  · rw [(List.mem_replicate.mp hc).2]; exact hpick
  · simp [waveletCalls, dueWarnings]
  · induction n with
    | zero => simp [deltaCalls, FftRun.of]
    | succ n ih =>
      refine andThen_calls (fun c hc => ?_) fun _ => ih
      rw [(List.mem_replicate.mp hc).2]; exact hpick
  · induction n with
    | zero => simp [deltaCalls, FftRun.of]
    | succ n ih => simp only [deltaCalls, FftRun.andThen, List.length_append, List.length_replicate, ih]; ring
  · induction n with
    | zero => simp [deltaCalls, FftRun.of, dueWarnings]
    | succ n ih =>
      simp only [deltaCalls, FftRun.andThen, ih, dueWarnings, Bool.and_eq_true]
      split_ifs <;> ring

/-- **C117, violation.** `keep_rfft` among the options for pyfftw is taken by `rfft_to_fft`: the "power spectrum" of an image with
`m` columns has `m / 2 + 1` of them. -/
theorem C117_keep_rfft_violated (lib : Option Fftw) (data : Arr2 ℝ) (hn : data.n ≠ 0) (hm : data.m ≠ 0) :
    ∃ r, (pspecOpts lib data none ⟨.bool false, .num 1, [("keep_rfft", .bool true)]⟩).res = .ok r ∧ r.n = data.n ∧ r.m = data.m / 2 + 1 := by
  simp [pspecOpts, FftRun.of, FftRun.andThen, rfftToFftOpts, FftOpts.forRfft, dropThreads, kwGet, bindKw, sigRfft, Sig.names, rfftStep,
    OVal.truthy, npRfftn, rfftn2, Except.map, afterRfft, hn, hm, asD2, Arr2.map, Arr2.fftshift, apodized2]
  exact ⟨rfl, rfl⟩

/-! ### the old names -/

/-- **C117, old names.** An old name gives what the new class gives, for the same arguments, and one warning of its own first. -/
theorem C117_old_names {ι α : Type} (name : OldName) (new : ι → List OldName × Py α) (args : ι) :
    (oldName name new args).2 = (new args).2 ∧ (oldName name new args).1.count name = (new args).1.count name + 1 := by
  simp [oldName]

/-- **C117, violation.** The new class `Bispectrum_Distance` warns about the old name `BiSpectrum` once for every argument that is not
already a `Bispectrum`. -/
theorem C117_new_name_warns_violated (data1 data2 : BispecArg) :
    (bispecDistWarnings data1 data2).count .BiSpectrum = (if data1 = .image then 1 else 0) + (if data2 = .image then 1 else 0) := by
  cases data1 <;> cases data2 <;> simp [bispecDistWarnings]

end TS
