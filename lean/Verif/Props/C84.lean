import Verif.Model.RunCalls

/-! C84: `run` is its documented steps with the options given: every option of `run` reaches the steps that have an option of that
name, every entry of an option dictionary reaches the step it is documented for, and nothing else is computed. -/

namespace TS

namespace Spec

/-- The value of an option: what the user gave, else the default. -/
def option (s : Sig) (kw : KwArgs) (name : String) : Option OVal :=
  (kwGet s.params name).map fun d => (kwGet kw name).getD d

/-- Whether an option is switched on. -/
def isOn (s : Sig) (kw : KwArgs) (name : String) : Bool := ((option s kw name).getD .none).truthy

/-- The dictionaries among the options: statistic, option, the step it is documented to be passed to. -/
def dictTargets : List (String × String × String) :=
  [("PowerSpectrum", "pyfftw_kwargs", "compute_pspec"), ("PowerSpectrum", "radial_pspec_kwargs", "compute_radial_pspec"),
   ("PowerSpectrum", "fit_kwargs", "fit_pspec"), ("PowerSpectrum", "fit_2D_kwargs", "fit_2Dpspec"),
   ("VCA", "pyfftw_kwargs", "compute_pspec"), ("VCA", "radial_pspec_kwargs", "compute_radial_pspec"),
   ("VCA", "fit_kwargs", "fit_pspec"), ("VCA", "fit_2D_kwargs", "fit_2Dpspec"),
   ("MVC", "pyfftw_kwargs", "compute_pspec"), ("MVC", "radial_pspec_kwargs", "compute_radial_pspec"),
   ("MVC", "fit_kwargs", "fit_pspec"), ("MVC", "fit_2D_kwargs", "fit_2Dpspec"),
   ("VCS", "pyfftw_kwargs", "compute_pspec"),
   ("DeltaVariance", "fit_kwargs", "fit_plaw"), ("Wavelet", "fit_kwargs", "fit_transform"),
   ("SCF", "radialavg_kwargs", "compute_spectrum"), ("SCF", "fit_kwargs", "fit_plaw"), ("SCF", "fit_2D_kwargs", "fit_2Dplaw"),
   ("Dendrogram_Stats", "fit_kwargs", "fit_numfeat"), ("Dendrogram_Stats", "hist_kwargs", "make_hists")]

/-- The statistics whose further keywords are documented to be passed to a step. -/
def extraTargets : List (String × String) :=
  [("VCS", "fit_pspec"), ("StatMoments", "make_spatial_histograms"), ("Genus", "make_genus_curve"), ("PDF", "fit_pdf"),
   ("Bispectrum", "compute_bispectrum")]

/-- The steps of each statistic in order, with the switches they depend on. -/
def steps : List (String × List (String × List (String × Bool))) :=
  [("PowerSpectrum", [("compute_pspec", []), ("compute_radial_pspec", []), ("fit_pspec", []), ("fit_2Dpspec", [("fit_2D", true)])]),
   ("VCA", [("compute_pspec", []), ("compute_radial_pspec", []), ("fit_pspec", []), ("fit_2Dpspec", [("fit_2D", true)])]),
   ("MVC", [("compute_pspec", []), ("compute_radial_pspec", []), ("fit_pspec", []), ("fit_2Dpspec", [("fit_2D", true)])]),
   ("VCS", [("compute_pspec", []), ("fit_pspec", [])]),
   ("DeltaVariance", [("compute_deltavar", []), ("fit_plaw", [])]),
   ("Wavelet", [("compute_transform", []), ("fit_transform", [])]),
   ("SCF", [("compute_surface", []), ("compute_spectrum", []), ("fit_plaw", []), ("fit_2Dplaw", [("fit_2D", true)])]),
   ("PCA", [("compute_pca", []), ("find_spatial_widths", [("decomp_only", false)]), ("find_spectral_widths", [("decomp_only", false)]),
     ("fit_plaw", [("decomp_only", false)])]),
   ("Tsallis", [("make_tsallis", []), ("fit_tsallis", [])]),
   ("StatMoments", [("array_moments", []), ("compute_spatial_distrib", []), ("make_spatial_histograms", [])]),
   ("Genus", [("make_genus_curve", [])]),
   ("Dendrogram_Stats", [("compute_dendro", []), ("fit_numfeat", []), ("make_hists", [("make_hists", true)]),
     ("save_results", [("save_results", true)])]),
   ("PDF", [("make_pdf", []), ("make_ecdf", []), ("fit_pdf", [("do_fit", true)])]),
   ("Bispectrum", [("compute_bispectrum", [])])]

end Spec

open Spec

/-! ### keyword lists -/

private theorem kwGet_map (f : String × OVal → OVal) (l : KwArgs) (hf : ∀ p q : String × OVal, p.1 = q.1 → p.2 = q.2 → f p = f q)
    (name : String) : kwGet (l.map fun p => (p.1, f p)) name = (kwGet l name).map fun d => f (name, d) := by
  induction l with
  | nil => rfl
  | cons p t ih =>
    obtain ⟨k, v⟩ := p
    simp only [List.map_cons, kwGet]
    split_ifs with h
    · subst h; rfl
    · exact ih

private theorem kwGet_append (a b : KwArgs) (name : String) : kwGet (a ++ b) name = (kwGet a name).or (kwGet b name) := by
  induction a with
  | nil => simp [kwGet]
  | cons p t ih =>
    obtain ⟨k, v⟩ := p
    simp only [List.cons_append, kwGet]
    split_ifs
    · rfl
    · exact ih

private theorem kwGet_none {l : KwArgs} {name : String} (h : name ∉ l.map (·.1)) : kwGet l name = none := by
  induction l with
  | nil => rfl
  | cons p t ih =>
    obtain ⟨k, v⟩ := p
    simp only [List.map_cons, List.mem_cons, not_or] at h
    simp only [kwGet]
    rw [if_neg (fun e => h.1 e.symm)]
    exact ih h.2

private theorem kwGet_some_mem {l : KwArgs} {name : String} {v : OVal} (h : kwGet l name = some v) : (name, v) ∈ l := by
  induction l with
  | nil => simp [kwGet] at h
  | cons p t ih =>
    obtain ⟨k, u⟩ := p
    simp only [kwGet] at h
    split_ifs at h with hk
    · subst hk
      simp only [Option.some.injEq] at h
      exact h ▸ List.mem_cons_self
    · exact List.mem_cons_of_mem _ (ih h)

private theorem kwGet_of_mem {l : KwArgs} (hn : (l.map (·.1)).Nodup) {name : String} {v : OVal} (h : (name, v) ∈ l) :
    kwGet l name = some v := by
  induction l with
  | nil => simp at h
  | cons p t ih =>
    obtain ⟨k, u⟩ := p
    simp only [List.map_cons, List.nodup_cons] at hn
    simp only [kwGet]
    rcases List.mem_cons.1 h with h | h
    · cases h
      rw [if_pos rfl]
    · rw [if_neg]
      · exact ih hn.2 h
      · intro e
        subst e
        exact hn.1 (List.mem_map.2 ⟨_, h, rfl⟩)

private theorem kwGet_erase {l : KwArgs} {key name : String} (h : name ≠ key) : kwGet (kwErase l key) name = kwGet l name := by
  induction l with
  | nil => rfl
  | cons p t ih =>
    obtain ⟨k, u⟩ := p
    unfold kwErase at ih ⊢
    rw [List.filter_cons]
    split_ifs with hk
    · simp only [kwGet]
      split_ifs
      · rfl
      · exact ih
    · simp only [ne_eq, decide_not, Bool.not_eq_true', decide_eq_false_iff_not, not_not] at hk
      simp only [kwGet]
      rw [if_neg (fun e : k = name => h (e ▸ hk)), ih]

/-- Calls follow Python's rules: the body sees the value given, else the default. -/
private theorem bind_get {s : Sig} {kw : KwArgs} {b : Bound} (h : bindKw s kw = .ok b) (name : String) :
    kwGet b.args name = option s kw name := by
  unfold bindKw at h
  split_ifs at h
  cases h
  exact kwGet_map (fun p => (kwGet kw p.1).getD p.2) s.params (fun p q h1 h2 => by rw [h1, h2]) name

private theorem bind_nodup {s : Sig} {kw : KwArgs} {b : Bound} (h : bindKw s kw = .ok b) : (kw.map (·.1)).Nodup := by
  unfold bindKw at h
  split_ifs at h with h1
  exact h1

private theorem bind_extra {s : Sig} {kw : KwArgs} {b : Bound} (h : bindKw s kw = .ok b) :
    b.extra = kw.filter fun p => !(s.names.contains p.1) := by
  unfold bindKw at h
  split_ifs at h
  cases h
  rfl

private theorem bind_names {s : Sig} {kw : KwArgs} {b : Bound} (h : bindKw s kw = .ok b) : b.args.map (·.1) = s.names := by
  unfold bindKw at h
  split_ifs at h
  cases h
  simp [Sig.names, Function.comp_def]

private theorem mem_names {s : Sig} {name : String} (h : name ∈ s.names) : ∃ d, kwGet s.params name = some d := by
  unfold Sig.names at h
  generalize s.params = l at h
  induction l with
  | nil => simp at h
  | cons p t ih =>
    obtain ⟨k, u⟩ := p
    simp only [List.map_cons, List.mem_cons] at h
    simp only [kwGet]
    by_cases hk : k = name
    · exact ⟨u, if_pos hk⟩
    · rw [if_neg hk]
      rcases h with h | h
      · exact absurd h.symm hk
      · exact ih h

/-! ### running -/

private theorem envSet_get (env : KwArgs) {d name : String} (v : OVal) (h : name ≠ d) : kwGet (envSet env d v) name = kwGet env name := by
  induction env with
  | nil => rfl
  | cons p t ih =>
    obtain ⟨k, u⟩ := p
    simp only [envSet, List.map_cons] at ih ⊢
    split_ifs with hk
    · simp only [kwGet]
      rw [if_neg (fun e : k = name => h (e ▸ hk)), if_neg (fun e : k = name => h (e ▸ hk)), ih]
    · simp only [kwGet]
      split_ifs
      · rfl
      · exact ih

private theorem envSet_same {env : KwArgs} {d : String} (v : OVal) {u : OVal} (h : kwGet env d = some u) :
    kwGet (envSet env d v) d = some v := by
  induction env with
  | nil => simp [kwGet] at h
  | cons p t ih =>
    obtain ⟨k, w⟩ := p
    simp only [envSet, List.map_cons] at ih ⊢
    simp only [kwGet] at h
    by_cases hk : k = d
    · rw [if_pos hk]
      simp only [kwGet]
      rw [if_pos hk]
    · rw [if_neg hk] at h
      rw [if_neg hk]
      simp only [kwGet]
      rw [if_neg hk]
      exact ih h

/-- The variable a preparatory statement may change. -/
private def preTarget : PreOp → String
  | .pop d _ => d
  | .beam => "beam_fwhm"

private theorem preStep_get {hb : Option OVal} {env env' : KwArgs} {op : PreOp} (h : preStep hb env op = .ok env') {name : String}
    (hn : name ≠ preTarget op) : kwGet env' name = kwGet env name := by
  cases op with
  | pop d key =>
    simp only [preStep] at h
    split at h
    · split at h
      · cases h; rfl
      · cases h; rfl
      · cases h
        exact envSet_get _ _ hn
    · cases h
  | beam =>
    simp only [preStep] at h
    split at h
    · split_ifs at h
      · split at h
        · cases h
          exact envSet_get _ _ hn
        · cases h
      · cases h; rfl
    · cases h; rfl

private theorem preRun_get {hb : Option OVal} {ops : List PreOp} {env env' : KwArgs} (h : preRun hb env ops = .ok env') {name : String}
    (hn : ∀ op ∈ ops, name ≠ preTarget op) : kwGet env' name = kwGet env name := by
  induction ops generalizing env with
  | nil => simp only [preRun, Except.ok.injEq] at h; rw [h]
  | cons op t ih =>
    simp only [preRun] at h
    split at h
    · rename_i e1 h1
      rw [ih h fun o ho => hn o (List.mem_cons_of_mem _ ho), preStep_get h1 (hn op List.mem_cons_self)]
    · cases h

private theorem exec_event {env : KwArgs} {calls : List CallDef} {ev : Event} (h : ev ∈ (execCalls env calls).1) :
    ∃ c ∈ calls, guarded env c = true ∧ ev.step = c.step ∧ makeCall env c = .ok ev.bound := by
  induction calls with
  | nil => simp [execCalls] at h
  | cons c t ih =>
    simp only [execCalls] at h
    split_ifs at h with hg
    · split at h
      · simp at h
      · rename_i b hb
        split at h
        · simp only [List.mem_singleton] at h
          subst h
          exact ⟨c, List.mem_cons_self, hg, rfl, hb⟩
        · simp only [List.mem_cons] at h
          rcases h with h | h
          · subst h
            exact ⟨c, List.mem_cons_self, hg, rfl, hb⟩
          · obtain ⟨c', h1, h2⟩ := ih h
            exact ⟨c', List.mem_cons_of_mem _ h1, h2⟩
    · obtain ⟨c', h1, h2⟩ := ih h
      exact ⟨c', List.mem_cons_of_mem _ h1, h2⟩

private theorem exec_done {env : KwArgs} {calls : List CallDef} (h : (execCalls env calls).2 = none) :
    (execCalls env calls).1.map (·.step) = (calls.filter (guarded env)).map (·.step) ∧
    ∀ c ∈ calls, guarded env c = true → ∃ b, makeCall env c = .ok b ∧ c.body b = none ∧ (⟨c.step, b⟩ : Event) ∈ (execCalls env calls).1 := by
  induction calls with
  | nil => simp [execCalls]
  | cons c t ih =>
    simp only [execCalls] at h ⊢
    split_ifs at h ⊢ with hg
    · split at h
      · cases h
      · rename_i b hb
        split at h
        · cases h
        · rename_i hbody
          simp only [hb, hbody]
          obtain ⟨i1, i2⟩ := ih h
          refine ⟨?_, ?_⟩
          · rw [List.filter_cons, if_pos hg, List.map_cons, List.map_cons, i1]
          · intro c' hc' hg'
            rcases List.mem_cons.1 hc' with rfl | hc'
            · exact ⟨b, hb, hbody, List.mem_cons_self⟩
            · obtain ⟨b', q1, q2, q3⟩ := i2 c' hc' hg'
              exact ⟨b', q1, q2, List.mem_cons_of_mem _ q3⟩
    · obtain ⟨i1, i2⟩ := ih h
      refine ⟨?_, ?_⟩
      · rw [List.filter_cons, if_neg hg, i1]
      · intro c' hc' hg'
        rcases List.mem_cons.1 hc' with rfl | hc'
        · exact absurd hg' hg
        · exact i2 c' hc' hg'

private theorem run_parts {hb : Option OVal} {r : RunDef} {kw : KwArgs} {ev : Event} (h : ev ∈ (execRun hb r kw).events) :
    ∃ b env, bindKw r.sig kw = .ok b ∧ preRun hb (runEnv b) r.pre = .ok env ∧ (execRun hb r kw).env = env ∧
      ∃ c ∈ r.calls, guarded env c = true ∧ ev.step = c.step ∧ makeCall env c = .ok ev.bound := by
  unfold execRun at h ⊢
  split at h
  · simp at h
  · rename_i b hb'
    split at h
    · simp at h
    · rename_i env he
      exact ⟨b, env, hb', he, by simp only [hb', he], exec_event h⟩

private theorem run_done {hb : Option OVal} {r : RunDef} {kw : KwArgs} (h : (execRun hb r kw).err = none) :
    ∃ b env, bindKw r.sig kw = .ok b ∧ preRun hb (runEnv b) r.pre = .ok env ∧ (execRun hb r kw).env = env ∧
      (execRun hb r kw).events = (execCalls env r.calls).1 ∧ (execCalls env r.calls).2 = none := by
  unfold execRun at h ⊢
  split at h
  · cases h
  · rename_i b hb'
    split at h
    · cases h
    · rename_i env he
      exact ⟨b, env, hb', he, by simp only [hb', he], by simp only [hb', he], h⟩

/-- Local variables at the first call. -/
private theorem env_get {hb : Option OVal} {r : RunDef} {kw : KwArgs} {b : Bound} {env : KwArgs} (h1 : bindKw r.sig kw = .ok b)
    (h2 : preRun hb (runEnv b) r.pre = .ok env) {name : String} (hn : ∀ op ∈ r.pre, name ≠ preTarget op) (hm : name ∈ r.sig.names) :
    kwGet env name = option r.sig kw name := by
  rw [preRun_get h2 hn, runEnv, kwGet_append, bind_get h1]
  obtain ⟨d, hd⟩ := mem_names hm
  simp [option, hd]

private theorem star_sub {env : KwArgs} {ds : List String} {kw : KwArgs} (h : starKw env ds = .ok kw) {d : String} (hd : d ∈ ds)
    {l : KwArgs} (hl : kwGet env d = some (.dict l)) {p : String × OVal} (hp : p ∈ l) : p ∈ kw := by
  induction ds generalizing kw with
  | nil => simp at hd
  | cons e t ih =>
    simp only [starKw] at h
    split at h
    · rename_i l' r' h1 h2
      cases h
      rcases List.mem_cons.1 hd with rfl | hd
      · rw [hl] at h1
        cases h1
        exact List.mem_append_left _ hp
      · exact List.mem_append_right _ (ih h2 hd)
    · cases h
    · cases h

private theorem call_parts {env : KwArgs} {c : CallDef} {b : Bound} (h : makeCall env c = .ok b) :
    ∃ kw, starKw env c.star = .ok kw ∧ bindKw c.sig ((c.args.map fun p => (p.1, (kwGet env p.2).getD .none)) ++ kw) = .ok b := by
  unfold makeCall at h
  split at h
  · cases h
  · rename_i kw hk
    exact ⟨kw, hk, h⟩

/-- A keyword set explicitly to an option of `run`. -/
private theorem call_arg {env : KwArgs} {c : CallDef} {b : Bound} (h : makeCall env c = .ok b) {k o : String} (hk : (k, o) ∈ c.args)
    (hs : k ∈ c.sig.names) : kwGet b.args k = some ((kwGet env o).getD .none) := by
  obtain ⟨kw, -, h2⟩ := call_parts h
  rw [bind_get h2]
  have := kwGet_of_mem (bind_nodup h2) (name := k) (v := (kwGet env o).getD .none)
    (List.mem_append_left _ (List.mem_map.2 ⟨(k, o), hk, rfl⟩))
  obtain ⟨d, hd⟩ := mem_names hs
  simp [option, hd, this]

/-- A keyword from an expanded dictionary. -/
private theorem call_star {env : KwArgs} {c : CallDef} {b : Bound} (h : makeCall env c = .ok b) {d : String} (hd : d ∈ c.star)
    {l : KwArgs} (hl : kwGet env d = some (.dict l)) {k : String} {v : OVal} (hp : (k, v) ∈ l) :
    kwGet (b.args ++ b.extra) k = some v := by
  obtain ⟨kw, h1, h2⟩ := call_parts h
  have hmem := List.mem_append_right (c.args.map fun p => (p.1, (kwGet env p.2).getD .none)) (star_sub h1 hd hl hp)
  have hget := kwGet_of_mem (bind_nodup h2) hmem
  rw [kwGet_append, bind_get h2]
  by_cases hk : k ∈ c.sig.names
  · obtain ⟨e, he⟩ := mem_names hk
    simp [option, he, hget]
  · have hno : kwGet c.sig.params k = none := kwGet_none hk
    simp only [option, hno, Option.map_none, Option.none_or, bind_extra h2]
    refine kwGet_of_mem ((List.Sublist.map _ List.filter_sublist).nodup (bind_nodup h2)) ?_
    rw [List.mem_filter]
    exact ⟨hmem, by simpa using hk⟩

/-! ### the table of `run` methods -/

/-- Names that need not be passed on (printing), or are treated separately below. -/
private def separate : List String := ["verbose", "min_frac", "beam_fwhm"]

private def fwdOk (r : RunDef) : Bool :=
  (r.pre.all fun op => r.calls.all fun c => c.sig.names.all fun p => p ≠ preTarget op || separate.contains p) &&
  r.calls.all fun c => c.sig.names.all fun p => separate.contains p || !(r.sig.names.contains p) || c.args.contains (p, p)

private theorem fwd_all : ∀ r ∈ allRuns, fwdOk r = true := by decide +kernel

/-- Every option of `run` that a step also has reaches that step with the value given by the user, or else with the default of `run`; for
all statistics, all values and all steps.  Not covered here: `verbose` (printing only), `min_frac` and `beam_fwhm` (below). -/
theorem C84_forward_partial {hb : Option OVal} {r : RunDef} (hr : r ∈ allRuns) {kw : KwArgs} {ev : Event}
    (hev : ev ∈ (execRun hb r kw).events) {p : String} (hp : p ∈ r.sig.names) (h1 : p ≠ "verbose") (h2 : p ≠ "min_frac")
    (h3 : p ≠ "beam_fwhm") {v : OVal} (hv : kwGet ev.bound.args p = some v) : option r.sig kw p = some v := by
  obtain ⟨b, env, e1, e2, -, c, hc, -, -, hcall⟩ := run_parts hev
  have hok := fwd_all r hr
  simp only [fwdOk, Bool.and_eq_true, List.all_eq_true] at hok
  have hns : separate.contains p = false := by
    simp [separate, h1, h2, h3]
  have hps : p ∈ c.sig.names := by
    obtain ⟨kw', -, q2⟩ := call_parts hcall
    rw [← bind_names q2]
    exact List.mem_map.2 ⟨_, kwGet_some_mem hv, rfl⟩
  have harg := hok.2 c hc p hps
  simp only [hns, Bool.false_or, Bool.or_eq_true, Bool.not_eq_true', List.contains_iff_mem, ← Bool.not_eq_true] at harg
  have harg' : (p, p) ∈ c.args := harg.resolve_left fun hcon => hcon hp
  rw [call_arg hcall harg' hps, Option.some.injEq] at hv
  have hpre : ∀ op ∈ r.pre, p ≠ preTarget op := by
    intro op hop
    have := hok.1 op hop c hc p hps
    rw [hns, Bool.or_false] at this
    simpa using this
  have henv := env_get e1 e2 hpre hp
  obtain ⟨d, hd⟩ := mem_names hp
  rw [henv] at hv
  simp only [option, hd, Option.map_some, Option.getD_some] at hv ⊢
  rw [hv]

private def dictOk (r : RunDef) (d step : String) : Bool :=
  r.sig.names.contains d && r.calls.all fun c => c.step != step || c.star.contains d

private theorem dict_all : ∀ t ∈ dictTargets, ∀ r ∈ allRuns, r.cls = t.1 → dictOk r t.2.1 t.2.2 = true := by decide +kernel

private def popKeys : List String := ["threads", "fit_unbinned"]

private def popsOk (r : RunDef) : Bool := r.pre.all fun op => match op with
  | .pop _ k => popKeys.contains k
  | .beam => true

private theorem pops_all : ∀ r ∈ allRuns, popsOk r = true := by decide +kernel

private theorem pre_dict {hb : Option OVal} {ops : List PreOp} (hops : (ops.all fun op => match op with
      | .pop _ k => popKeys.contains k
      | .beam => true) = true) {env env' : KwArgs} (h : preRun hb env ops = .ok env') {d : String} (hd : d ≠ "beam_fwhm") {l : KwArgs}
    (hl : kwGet env d = some (.dict l)) :
    ∃ l', kwGet env' d = some (.dict l') ∧ ∀ p ∈ l, p.1 ∉ popKeys → p ∈ l' := by
  induction ops generalizing env l with
  | nil =>
    simp only [preRun, Except.ok.injEq] at h
    exact ⟨l, h ▸ hl, fun p hp _ => hp⟩
  | cons op t ih =>
    simp only [List.all_cons, Bool.and_eq_true] at hops
    simp only [preRun] at h
    split at h
    · rename_i e1 h1
      have hstep : ∃ l', kwGet e1 d = some (.dict l') ∧ ∀ p ∈ l, p.1 ∉ popKeys → p ∈ l' := by
        by_cases ht : d = preTarget op
        · cases op with
          | beam => exact absurd ht hd
          | pop e key =>
            have ht' : d = e := ht
            subst ht'
            have hkey : key ∈ popKeys := by simpa using hops.1
            simp only [preStep, hl] at h1
            split at h1
            · cases h1; exact ⟨l, hl, fun p hp _ => hp⟩
            · cases h1; exact ⟨l, hl, fun p hp _ => hp⟩
            · cases h1
              refine ⟨_, envSet_same _ hl, fun p hp hk => ?_⟩
              rw [kwErase, List.mem_filter]
              refine ⟨hp, ?_⟩
              simp only [ne_eq, decide_not, Bool.not_eq_true', decide_eq_false_iff_not]
              intro he
              exact hk (he ▸ hkey)
        · exact ⟨l, by rw [preStep_get h1 ht, hl], fun p hp _ => hp⟩
      obtain ⟨l1, g1, g2⟩ := hstep
      obtain ⟨l2, g3, g4⟩ := ih hops.2 h g1
      exact ⟨l2, g3, fun p hp hk => g4 p (g2 p hp hk) hk⟩
    · cases h

private theorem dict_names : ∀ t ∈ dictTargets, t.2.1 ≠ "beam_fwhm" := by decide +kernel

/-- Every entry of an option dictionary (`fit_kwargs`, `radial_pspec_kwargs`, ...) reaches the step the dictionary is for, with its
value, as a named or as a further keyword; except for `threads` and `fit_unbinned` (below). -/
theorem C84_dictionaries {hb : Option OVal} {cls d step : String} (ht : (cls, d, step) ∈ dictTargets) {r : RunDef} (hr : r ∈ allRuns)
    (hcls : r.cls = cls) {kw : KwArgs} {l : KwArgs} (hl : option r.sig kw d = some (.dict l)) {ev : Event}
    (hev : ev ∈ (execRun hb r kw).events) (hstep : ev.step = step) {k : String} {v : OVal} (hk : (k, v) ∈ l) (h1 : k ≠ "threads")
    (h2 : k ≠ "fit_unbinned") : kwGet (ev.bound.args ++ ev.bound.extra) k = some v := by
  obtain ⟨b, env, e1, e2, -, c, hc, -, hs, hcall⟩ := run_parts hev
  have hok := dict_all _ ht r hr hcls
  simp only [dictOk, Bool.and_eq_true, List.all_eq_true, List.contains_iff_mem] at hok
  have hstar : d ∈ c.star := by
    have := hok.2 c hc
    rw [← hs, hstep] at this
    simpa using this
  have hrun : kwGet (runEnv b) d = some (.dict l) := by
    rw [runEnv, kwGet_append, bind_get e1, hl]
    rfl
  obtain ⟨l', g1, g2⟩ := pre_dict (pops_all r hr) e2 (dict_names _ ht) hrun
  exact call_star hcall hstar g1 (g2 _ hk (by simp [popKeys, h1, h2]))

private def extraOk (r : RunDef) (step : String) : Bool :=
  !(r.sig.names.contains "**") && r.calls.all (fun c => c.step != step || c.star.contains "**") &&
  r.pre.all fun op => preTarget op != "**"

private theorem extra_all : ∀ t ∈ extraTargets, ∀ r ∈ allRuns, r.cls = t.1 → extraOk r t.2 = true := by decide +kernel

/-- The further keywords of `run` reach the step they are documented for. -/
theorem C84_extra {hb : Option OVal} {cls step : String} (ht : (cls, step) ∈ extraTargets) {r : RunDef} (hr : r ∈ allRuns)
    (hcls : r.cls = cls) {kw : KwArgs} {ev : Event} (hev : ev ∈ (execRun hb r kw).events) (hstep : ev.step = step) {k : String} {v : OVal}
    (hk : (k, v) ∈ kw) (h1 : k ∉ r.sig.names) : kwGet (ev.bound.args ++ ev.bound.extra) k = some v := by
  obtain ⟨b, env, e1, e2, -, c, hc, -, hs, hcall⟩ := run_parts hev
  have hok := extra_all _ ht r hr hcls
  simp only [extraOk, Bool.and_eq_true, List.all_eq_true, bne_iff_ne, ne_eq, Bool.not_eq_true'] at hok
  have hstar : "**" ∈ c.star := by
    have := hok.1.2 c hc
    rw [← hs, hstep] at this
    simpa using this
  have hrun : kwGet env "**" = some (.dict b.extra) := by
    rw [preRun_get e2 fun op hop he => hok.2 op hop he.symm, runEnv, kwGet_append]
    have : kwGet b.args "**" = none := by
      apply kwGet_none
      rw [bind_names e1]
      intro hm
      have h0 := hok.1.1
      rw [List.contains_iff_mem.2 hm] at h0
      cases h0
    rw [this]
    rfl
  refine call_star hcall hstar hrun ?_
  rw [bind_extra e1, List.mem_filter]
  exact ⟨hk, by simpa using h1⟩

private def stepsOk (r : RunDef) (l : List (String × List (String × Bool))) : Bool :=
  (r.calls.map fun c => (c.step, c.guards)) == l &&
  r.calls.all fun c => c.guards.all fun g => r.sig.names.contains g.1 && r.pre.all fun op => g.1 != preTarget op

private theorem steps_all : ∀ t ∈ steps, ∀ r ∈ allRuns, r.cls = t.1 → stepsOk r t.2 = true := by decide +kernel

private theorem filter_steps (l : List CallDef) (f : List (String × Bool) → Bool) :
    (l.filter fun c => f c.guards).map (·.step) = ((l.map fun c => (c.step, c.guards)).filter fun s => f s.2).map (·.1) := by
  induction l with
  | nil => rfl
  | cons c t ih =>
    simp only [List.map_cons, List.filter_cons]
    split_ifs
    · rw [List.map_cons, List.map_cons, ih]
    · exact ih

/-- A run that ends without an error made exactly the documented calls, in order, those depending on a switch exactly when it was set
that way. -/
theorem C84_steps {hb : Option OVal} {cls : String} {l : List (String × List (String × Bool))} (ht : (cls, l) ∈ steps) {r : RunDef}
    (hr : r ∈ allRuns) (hcls : r.cls = cls) {kw : KwArgs} (h : (execRun hb r kw).err = none) :
    (execRun hb r kw).events.map (·.step) = (l.filter fun s => s.2.all fun g => isOn r.sig kw g.1 == g.2).map (·.1) := by
  obtain ⟨b, env, e1, e2, -, e4, e5⟩ := run_done h
  have hok := steps_all _ ht r hr hcls
  simp only [stepsOk, Bool.and_eq_true, List.all_eq_true, beq_iff_eq, bne_iff_ne, ne_eq, List.contains_iff_mem] at hok
  rw [e4, (exec_done e5).1]
  have hguard : ∀ c ∈ r.calls, guarded env c = c.guards.all fun g => isOn r.sig kw g.1 == g.2 := by
    intro c hc
    unfold guarded
    rw [Bool.eq_iff_iff, List.all_eq_true, List.all_eq_true]
    have : ∀ g ∈ c.guards, ((kwGet env g.1).getD .none).truthy = isOn r.sig kw g.1 := by
      intro g hg
      rw [env_get e1 e2 (hok.2 c hc g hg).2 (hok.2 c hc g hg).1]
      rfl
    exact ⟨fun H g hg => by rw [← this g hg]; exact H g hg, fun H g hg => by rw [this g hg]; exact H g hg⟩
  rw [List.filter_congr hguard, filter_steps r.calls fun gs => gs.all fun g => isOn r.sig kw g.1 == g.2, hok.1]

/-- Every statistic has its list of steps. -/
theorem C84_steps_all : ∀ r ∈ allRuns, ∃ t ∈ steps, r.cls = t.1 := by decide +kernel

/-- A name that is no option of a statistic without further keywords is refused before anything is computed. -/
theorem C84_unknown {hb : Option OVal} {r : RunDef} (hv : r.sig.varkw = false) {kw : KwArgs} {k : String} {v : OVal} (hk : (k, v) ∈ kw)
    (h1 : k ∉ r.sig.names) : (execRun hb r kw).err = some .typeError ∧ (execRun hb r kw).events = [] := by
  have : bindKw r.sig kw = .error .typeError := by
    unfold bindKw
    have a2 : r.sig.varkw = false ∧ kw.any (fun p => !(r.sig.names.contains p.1)) = true :=
      ⟨hv, List.any_eq_true.2 ⟨(k, v), hk, by simpa using h1⟩⟩
    rw [if_pos a2]
    split_ifs <;> rfl
  unfold execRun
  rw [this]
  exact ⟨rfl, rfl⟩

/-! ### PCA -/

/-- `PCA.run`: the width methods reach their steps; the beam size is the one given, else the one in the header, and if the correction is
asked for and there is neither, nothing is computed and ValueError is raised. -/
theorem C84_pca {hb : Option OVal} {kw : KwArgs} :
    (∀ ev ∈ (execRun hb runPca kw).events, ev.step = "find_spatial_widths" →
      kwGet ev.bound.args "method" = option runPca.sig kw "spatial_method" ∧
      (option runPca.sig kw "beam_fwhm" ≠ some .none → kwGet ev.bound.args "beam_fwhm" = option runPca.sig kw "beam_fwhm") ∧
      (option runPca.sig kw "beam_fwhm" = some .none → isOn runPca.sig kw "brunt_beamcorrect" = true →
        kwGet ev.bound.args "beam_fwhm" = hb)) ∧
    (∀ ev ∈ (execRun hb runPca kw).events, ev.step = "find_spectral_widths" →
      kwGet ev.bound.args "method" = option runPca.sig kw "spectral_method") ∧
    (bindKw runPca.sig kw ≠ .error .typeError → option runPca.sig kw "beam_fwhm" = some .none →
      isOn runPca.sig kw "brunt_beamcorrect" = true → isOn runPca.sig kw "decomp_only" = false → hb = none →
      (execRun hb runPca kw).err = some .valueError ∧ (execRun hb runPca kw).events = []) := by
  have hget : ∀ {b : Bound}, bindKw runPca.sig kw = .ok b → ∀ name ∈ runPca.sig.names,
      kwGet (runEnv b) name = option runPca.sig kw name := by
    intro b h1 name hm
    rw [runEnv, kwGet_append, bind_get h1]
    obtain ⟨d, hd⟩ := mem_names hm
    simp [option, hd]
  have hcallS : ∀ c ∈ runPca.calls, c.step = "find_spatial_widths" → ("method", "spatial_method") ∈ c.args ∧
      ("beam_fwhm", "beam_fwhm") ∈ c.args ∧ "method" ∈ c.sig.names ∧ "beam_fwhm" ∈ c.sig.names ∧ ("decomp_only", false) ∈ c.guards := by
    decide +kernel
  have hcallP : ∀ c ∈ runPca.calls, c.step = "find_spectral_widths" → ("method", "spectral_method") ∈ c.args ∧ "method" ∈ c.sig.names := by
    decide +kernel
  refine ⟨?_, ?_, ?_⟩
  · intro ev hev hs
    obtain ⟨b, env, e1, e2, -, c, hc, hg, hst, hcall⟩ := run_parts hev
    obtain ⟨c1, c2, c3, c4, c5⟩ := hcallS c hc (hst ▸ hs)
    have hne : ∀ name, name ≠ "beam_fwhm" → ∀ op ∈ runPca.pre, name ≠ preTarget op := by
      intro name hn op hop
      simp only [runPca, List.mem_singleton] at hop
      subst hop
      exact hn
    have hbeam0 := hget e1 "beam_fwhm" (by decide +kernel)
    refine ⟨?_, ?_, ?_⟩
    · rw [call_arg hcall c1 c3, env_get e1 e2 (hne _ (by decide)) (by decide +kernel)]
      obtain ⟨d, hd⟩ := mem_names (s := runPca.sig) (name := "spatial_method") (by decide +kernel)
      simp [option, hd]
    · intro hno
      rw [call_arg hcall c2 c4]
      have : env = runEnv b := by
        simp only [runPca, preRun, preStep] at e2
        rw [hbeam0] at e2
        split at e2
        · rename_i e' h'
          split at h'
          · rename_i h0
            exact absurd h0 hno
          · cases h'; cases e2; rfl
        · cases e2
      rw [this, hbeam0]
      obtain ⟨d, hd⟩ := mem_names (s := runPca.sig) (name := "beam_fwhm") (by decide +kernel)
      simp [option, hd]
    · intro hno hon
      rw [call_arg hcall c2 c4]
      have hdec : isOn runPca.sig kw "decomp_only" = false := by
        have := List.all_eq_true.1 hg _ c5
        rw [env_get e1 e2 (hne _ (by decide)) (by decide +kernel)] at this
        simpa [isOn] using this
      have h2 := hget e1 "brunt_beamcorrect" (by decide +kernel)
      have h3 := hget e1 "decomp_only" (by decide +kernel)
      simp only [isOn] at hon hdec
      rw [hno] at hbeam0
      have e2' : preRun hb (runEnv b) [.beam] = .ok env := e2
      simp only [preRun, preStep, hbeam0, h2, h3, hon, hdec, Bool.not_false, Bool.and_self, if_true] at e2'
      cases hb with
      | none => simp at e2'
      | some v =>
        simp only [Except.ok.injEq] at e2'
        rw [← e2', envSet_same v hbeam0]
        rfl
  · intro ev hev hs
    obtain ⟨b, env, e1, e2, -, c, hc, hg, hst, hcall⟩ := run_parts hev
    obtain ⟨c1, c2⟩ := hcallP c hc (hst ▸ hs)
    rw [call_arg hcall c1 c2, env_get e1 e2 _ (by decide +kernel)]
    · obtain ⟨d, hd⟩ := mem_names (s := runPca.sig) (name := "spectral_method") (by decide +kernel)
      simp [option, hd]
    · intro op hop
      simp only [runPca, List.mem_singleton] at hop
      subst hop
      decide
  · intro hbind hno hon hdec hb0
    have : ∃ b, bindKw runPca.sig kw = .ok b := by
      cases hq : bindKw runPca.sig kw with
      | ok b => exact ⟨b, rfl⟩
      | error e =>
        unfold bindKw at hq hbind
        split_ifs at hq hbind <;> first | exact absurd rfl hbind | cases hq
    obtain ⟨b, e1⟩ := this
    have hpre : preRun hb (runEnv b) runPca.pre = .error .valueError := by
      have h1 := hget e1 "beam_fwhm" (by decide +kernel)
      have h2 := hget e1 "brunt_beamcorrect" (by decide +kernel)
      have h3 := hget e1 "decomp_only" (by decide +kernel)
      simp only [isOn] at hon hdec
      rw [hno] at h1
      subst hb0
      show preRun none (runEnv b) [.beam] = _
      simp only [preRun, preStep, h1, h2, h3, hon, hdec, Bool.not_false, Bool.and_self, if_true]
    unfold execRun
    simp only [e1, hpre]
    exact ⟨trivial, trivial⟩

/-! ### what does not reach its step -/

/-- `StatMoments.run(min_frac=...)` is ignored: the maps are always made with 0.8. -/
theorem C84_min_frac_violated {hb : Option OVal} (kw : KwArgs) : ∀ ev ∈ (execRun hb runMoments kw).events,
    ev.step = "compute_spatial_distrib" → kwGet ev.bound.args "min_frac" = some (.num (4/5)) := by
  intro ev hev hs
  obtain ⟨b, env, e1, e2, -, c, hc, hg, hst, hcall⟩ := run_parts hev
  have hcall' : ∀ c ∈ runMoments.calls, c.step = "compute_spatial_distrib" → c.star = [] ∧ "min_frac" ∉ c.args.map (·.1) ∧
      c.sig.params.map (·.1) = ["radius", "periodic", "min_frac", "show_progress"] := by decide +kernel
  have hc2 : c = { step := "compute_spatial_distrib", sig := sigSpatialDistrib, args :=
      [("periodic", "periodic"), ("radius", "radius"), ("show_progress", "show_progress")] } := by
    simp only [runMoments, List.mem_cons, List.not_mem_nil, or_false] at hc
    rcases hc with rfl | rfl | rfl
    · simp [hst] at hs
    · rfl
    · simp [hst] at hs
  obtain ⟨a1, a2, -⟩ := hcall' c hc (hst ▸ hs)
  obtain ⟨kw', q1, q2⟩ := call_parts hcall
  rw [a1] at q1
  simp only [starKw, Except.ok.injEq] at q1
  subst q1
  rw [bind_get q2, List.append_nil]
  have hnone : kwGet (c.args.map fun p => (p.1, (kwGet env p.2).getD .none)) "min_frac" = none := by
    apply kwGet_none
    rw [List.map_map]
    exact a2
  rw [option, hnone, hc2]
  rfl

/-- The default window differs: `run` uses `alpha = 0.2`, its step on its own `alpha = 0.3`; for the three 2D power spectra and all
options that leave `alpha` alone. -/
theorem C84_alpha_violated {hb : Option OVal} {r : RunDef} (hr : r ∈ [runPspec, runVca, runMvc]) {kw kw' : KwArgs}
    (hk : kwGet kw "alpha" = none) (hk' : kwGet kw' "alpha" = none) :
    (∀ ev ∈ (execRun hb r kw).events, ev.step = "compute_pspec" → kwGet ev.bound.args "alpha" = some (.num (1/5))) ∧
    ∀ b, bindKw sigComputePspec kw' = .ok b → kwGet b.args "alpha" = some (.num (3/10)) := by
  have hr' : r ∈ allRuns := by
    simp only [List.mem_cons, List.not_mem_nil, or_false] at hr
    rcases hr with rfl | rfl | rfl <;> simp [allRuns]
  have hsig : r.sig = sigRunPspec ∧ r.calls = callsPspec := by
    simp only [List.mem_cons, List.not_mem_nil, or_false] at hr
    rcases hr with rfl | rfl | rfl <;> exact ⟨rfl, rfl⟩
  constructor
  · intro ev hev hs
    obtain ⟨b, env, e1, e2, -, c, hc, hg, hst, hcall⟩ := run_parts hev
    have hcall' : ∀ c ∈ callsPspec, c.step = "compute_pspec" → "alpha" ∈ c.sig.names := by decide +kernel
    obtain ⟨kw2, q1, q2⟩ := call_parts hcall
    obtain ⟨d, hd⟩ := mem_names (hcall' c (hsig.2 ▸ hc) (hst ▸ hs))
    have hex : ∃ v, kwGet ev.bound.args "alpha" = some v := by
      rw [bind_get q2, option, hd]
      exact ⟨_, rfl⟩
    obtain ⟨v, hv⟩ := hex
    have := C84_forward_partial hr' hev (p := "alpha") (by rw [hsig.1]; decide +kernel) (by decide) (by decide) (by decide) hv
    rw [hsig.1, option, hk] at this
    rw [hv, ← this]
    rfl
  · intro b hb'
    rw [bind_get hb', option, hk']
    rfl

private def sameAtom : OVal → OVal → Bool
  | .none, .none => true
  | .bool a, .bool b => a == b
  | .num a, .num b => a == b
  | .str a, .str b => a == b
  | .obj a, .obj b => a == b
  | .dict [], .dict [] => true
  | _, _ => false

private theorem sameAtom_eq {a b : OVal} (h : sameAtom a b = true) : a = b := by
  unfold sameAtom at h
  split at h <;> simp_all

private theorem defaults_all : ∀ r ∈ allRuns, ∀ c ∈ r.calls, ∀ p ∈ c.sig.params, p.1 ∈ r.sig.names → p.1 ≠ "alpha" →
    (r.cls = "Dendrogram_Stats" → p.1 ≠ "show_progress") → sameAtom ((kwGet r.sig.params p.1).getD (.obj 77)) p.2 = true := by
  decide +kernel

/-- An option that `run` shares with a step has the same default in both, apart from `alpha` (above) and the progress bar of the
dendrograms. -/
theorem C84_defaults : ∀ r ∈ allRuns, ∀ c ∈ r.calls, ∀ p ∈ c.sig.params, p.1 ∈ r.sig.names → p.1 ≠ "alpha" →
    (r.cls = "Dendrogram_Stats" → p.1 ≠ "show_progress") → kwGet r.sig.params p.1 = some p.2 := by
  intro r hr c hc p hp hn ha hd
  obtain ⟨d, hd'⟩ := mem_names hn
  have := sameAtom_eq (defaults_all r hr c hc p hp hn ha hd)
  rw [hd', Option.getD_some] at this
  rw [hd', this]

/-- `fit_unbinned` in `fit_kwargs`: `PowerSpectrum.run` and `VCA.run` ignore it and remove it from the caller's dictionary. -/
theorem C84_unbinned_violated {hb : Option OVal} {r : RunDef} (hr : r ∈ [runPspec, runVca]) {kw l : KwArgs} {v : OVal}
    (hl : option r.sig kw "fit_kwargs" = some (.dict l)) (hv : kwGet l "fit_unbinned" = some v) (hv0 : v ≠ .none) {ev : Event}
    (hev : ev ∈ (execRun hb r kw).events) (hs : ev.step = "fit_pspec") :
    kwGet ev.bound.args "fit_unbinned" = option r.sig kw "fit_unbinned" ∧
    kwGet (execRun hb r kw).env "fit_kwargs" = some (.dict (kwErase l "fit_unbinned")) := by
  have hr' : r ∈ allRuns := by
    simp only [List.mem_cons, List.not_mem_nil, or_false] at hr
    rcases hr with rfl | rfl <;> simp [allRuns]
  have hsig : r.sig = sigRunPspec ∧ r.calls = callsPspec ∧ r.pre = [.pop "pyfftw_kwargs" "threads", .pop "fit_kwargs" "fit_unbinned"] := by
    simp only [List.mem_cons, List.not_mem_nil, or_false] at hr
    rcases hr with rfl | rfl <;> exact ⟨rfl, rfl, rfl⟩
  obtain ⟨b, env, e1, e2, e3, c, hc, hg, hst, hcall⟩ := run_parts hev
  constructor
  · have hcall' : ∀ c ∈ callsPspec, c.step = "fit_pspec" → "fit_unbinned" ∈ c.sig.names := by decide +kernel
    obtain ⟨kw2, q1, q2⟩ := call_parts hcall
    obtain ⟨d, hd⟩ := mem_names (hcall' c (hsig.2.1 ▸ hc) (hst ▸ hs))
    have hex : ∃ v, kwGet ev.bound.args "fit_unbinned" = some v := by
      rw [bind_get q2, option, hd]
      exact ⟨_, rfl⟩
    obtain ⟨u, hu⟩ := hex
    rw [hu, C84_forward_partial hr' hev (by rw [hsig.1]; decide +kernel) (by decide) (by decide) (by decide) hu]
  · rw [e3]
    have hrun : kwGet (runEnv b) "fit_kwargs" = some (.dict l) := by
      rw [runEnv, kwGet_append, bind_get e1, hl]
      rfl
    rw [hsig.2.2] at e2
    simp only [preRun] at e2
    split at e2
    · rename_i env1 h1
      have h1' := preStep_get h1 (name := "fit_kwargs") (by decide)
      rw [hrun] at h1'
      split at e2
      · rename_i env2 h2
        simp only [Except.ok.injEq] at e2
        subst e2
        simp only [preStep, h1', hv] at h2
        cases v <;> first | exact absurd rfl hv0 | (cases h2; exact envSet_same _ h1')
      · cases e2
    · cases e2

/-- `fit_unbinned` in `fit_kwargs`: `MVC.run` never completes; when the fit is reached a TypeError is raised. -/
theorem C84_mvc_unbinned_violated {hb : Option OVal} {kw l : KwArgs} (hl : option runMvc.sig kw "fit_kwargs" = some (.dict l))
    (hv : "fit_unbinned" ∈ l.map (·.1)) :
    (execRun hb runMvc kw).err ≠ none ∧ ∀ ev ∈ (execRun hb runMvc kw).events, ev.step = "compute_pspec" ∨ ev.step = "compute_radial_pspec" := by
  have key : ∀ {b : Bound} {env : KwArgs}, bindKw runMvc.sig kw = .ok b → preRun hb (runEnv b) runMvc.pre = .ok env →
      ∀ c ∈ runMvc.calls, c.step = "fit_pspec" → ∀ d, makeCall env c ≠ .ok d := by
    intro b env e1 e2 c hc hs d hcall
    obtain ⟨kw', q1, q2⟩ := call_parts hcall
    have hca : ∀ c ∈ runMvc.calls, c.step = "fit_pspec" → ("fit_unbinned", "fit_unbinned") ∈ c.args ∧ "fit_kwargs" ∈ c.star := by
      decide +kernel
    obtain ⟨c1, c2⟩ := hca c hc hs
    have hrun : kwGet env "fit_kwargs" = some (.dict l) := by
      rw [env_get e1 e2 _ (by decide +kernel), hl]
      intro op hop
      simp only [runMvc, List.mem_singleton] at hop
      subst hop
      decide
    obtain ⟨p, hp, hp1⟩ := List.mem_map.1 hv
    have hin := star_sub q1 c2 hrun hp
    have hnd := bind_nodup q2
    rw [List.map_append, List.nodup_append] at hnd
    refine hnd.2.2 "fit_unbinned" ?_ "fit_unbinned" ?_ rfl
    · rw [List.map_map]
      exact List.mem_map.2 ⟨_, c1, rfl⟩
    · exact List.mem_map.2 ⟨p, hin, hp1⟩
  constructor
  · intro herr
    obtain ⟨b, env, e1, e2, -, -, e5⟩ := run_done herr
    obtain ⟨d, hd, -⟩ := (exec_done e5).2 { step := "fit_pspec", sig := sigFitPspec, args :=
      [("fit_unbinned", "fit_unbinned"), ("low_cut", "low_cut"), ("high_cut", "high_cut")], star := ["fit_kwargs"] }
      (by simp [runMvc, callsPspec]) rfl
    exact key e1 e2 _ (by simp [runMvc, callsPspec]) rfl d hd
  · intro ev hev
    have h0 := hev
    unfold execRun at h0
    obtain ⟨b, env, e1, e2, -, -⟩ := run_parts hev
    simp only [e1, e2] at h0
    have hfit := key e1 e2 { step := "fit_pspec", sig := sigFitPspec, args :=
      [("fit_unbinned", "fit_unbinned"), ("low_cut", "low_cut"), ("high_cut", "high_cut")], star := ["fit_kwargs"] }
      (by simp [runMvc, callsPspec]) rfl
    have hfit' : ∃ e, makeCall env { step := "fit_pspec", sig := sigFitPspec, args :=
      [("fit_unbinned", "fit_unbinned"), ("low_cut", "low_cut"), ("high_cut", "high_cut")], star := ["fit_kwargs"] } = .error e := by
      cases hq : makeCall env { step := "fit_pspec", sig := sigFitPspec, args :=
        [("fit_unbinned", "fit_unbinned"), ("low_cut", "low_cut"), ("high_cut", "high_cut")], star := ["fit_kwargs"] } with
      | error e => exact ⟨e, rfl⟩
      | ok d => exact absurd hq (hfit d)
    obtain ⟨e, he⟩ := hfit'
    simp only [runMvc, callsPspec, execCalls, he] at h0
    simp only [guarded, List.all_nil, if_true] at h0
    split at h0
    · simp at h0
    · simp only [List.mem_cons] at h0
      rcases h0 with h0 | h0
      · exact Or.inl (by rw [h0])
      · split at h0
        · simp at h0
        · simp only [List.mem_singleton] at h0
          exact Or.inr (by rw [h0])

/-- A misspelt option of `VCS.run` is accepted and changes nothing the steps see as their own options. -/
theorem C84_typo_violated {hb : Option OVal} {kw : KwArgs} {k : String} (v : OVal) (hk : k ∉ kw.map (·.1)) :
    (k ∉ runVcs.sig.names → k ∉ sigVcsFit.names → (execRun hb runVcs kw).err = none →
      (execRun hb runVcs (kw ++ [(k, v)])).err = none ∧
      (execRun hb runVcs (kw ++ [(k, v)])).events.map (fun e => (e.step, e.bound.args)) =
        (execRun hb runVcs kw).events.map fun e => (e.step, e.bound.args)) := by
  intro h1 h2 herr
  obtain ⟨b, env, e1, e2, e3, e4, e5⟩ := run_done herr
  have hnd := bind_nodup e1
  have hnd' : ((kw ++ [(k, v)]).map (·.1)).Nodup := by
    rw [List.map_append, List.nodup_append]
    refine ⟨hnd, by simp, ?_⟩
    intro a ha c hc
    simp only [List.map_cons, List.map_nil, List.mem_singleton] at hc
    subst hc
    intro he
    subst he
    exact hk ha
  have getne : ∀ (l : KwArgs) name, name ≠ k → kwGet (l ++ [(k, v)]) name = kwGet l name := by
    intro l name hn
    rw [kwGet_append]
    simp only [kwGet]
    rw [if_neg (fun e => hn e.symm)]
    simp
  have bindApp : ∀ (s : Sig) (l : KwArgs) (b : Bound), s.varkw = true → k ∉ s.names → ((l ++ [(k, v)]).map (·.1)).Nodup →
      bindKw s l = .ok b → bindKw s (l ++ [(k, v)]) = .ok ⟨b.args, b.extra ++ [(k, v)]⟩ := by
    intro s l b hs hks hl hb'
    have hbl := hb'
    unfold bindKw at hb' ⊢
    split_ifs at hb' with a1 a2
    rw [if_neg (not_not.2 hl), if_neg (by simp [hs])]
    cases hb'
    congr 2
    · apply List.map_congr_left
      intro p hp
      rw [getne l p.1]
      rintro rfl
      exact hks (List.mem_map.2 ⟨p, hp, rfl⟩)
    · rw [List.filter_append]
      congr 1
      rw [List.filter_cons, if_pos (by simpa using hks)]
      rfl
  have f1 := bindApp runVcs.sig kw b rfl h1 hnd' e1
  have henv : ∀ name, name ≠ "**" → kwGet (runEnv ⟨b.args, b.extra ++ [(k, v)]⟩) name = kwGet (runEnv b) name := by
    intro name hn
    simp only [runEnv, kwGet_append, kwGet]
    rw [if_neg (fun e => hn e.symm), if_neg (fun e => hn e.symm)]
  have hstarR : kwGet b.args "**" = none := by
    apply kwGet_none
    rw [bind_names e1]
    decide +kernel
  -- the statement before the calls
  have hpre : ∃ env', preRun hb (runEnv ⟨b.args, b.extra ++ [(k, v)]⟩) runVcs.pre = .ok env' ∧
      (∀ name, name ≠ "**" → kwGet env' name = kwGet env name) ∧ kwGet env' "**" = some (.dict (b.extra ++ [(k, v)])) ∧
      kwGet env "**" = some (.dict b.extra) := by
    have hs0 : kwGet env "**" = some (.dict b.extra) := by
      rw [preRun_get e2 (by intro op hop; simp only [runVcs, List.mem_singleton] at hop; subst hop; decide), runEnv, kwGet_append, hstarR]
      rfl
    have e2' := e2
    simp only [runVcs, preRun] at e2 ⊢
    simp only [preStep] at e2 ⊢
    rw [henv "pyfftw_kwargs" (by decide)]
    have hs1 : kwGet (runEnv ⟨b.args, b.extra ++ [(k, v)]⟩) "**" = some (.dict (b.extra ++ [(k, v)])) := by
      rw [runEnv, kwGet_append, hstarR]
      rfl
    cases hq : kwGet (runEnv b) "pyfftw_kwargs" with
    | none => rw [hq] at e2; simp at e2
    | some q =>
      rw [hq] at e2
      cases q with
      | dict l =>
        simp only at e2 ⊢
        cases hq2 : kwGet l "threads" with
        | none =>
          rw [hq2] at e2
          simp only [Except.ok.injEq] at e2 ⊢
          subst e2
          exact ⟨_, rfl, henv, hs1, hs0⟩
        | some u =>
          rw [hq2] at e2
          cases u with
          | none =>
            simp only [Except.ok.injEq] at e2 ⊢
            subst e2
            exact ⟨_, rfl, henv, hs1, hs0⟩
          | _ =>
            simp only [Except.ok.injEq] at e2 ⊢
            subst e2
            refine ⟨_, rfl, ?_, ?_, hs0⟩
            · intro name hn
              by_cases hp : name = "pyfftw_kwargs"
              · subst hp
                rw [envSet_same _ hq, envSet_same _ ((henv "pyfftw_kwargs" (by decide)).trans hq)]
              · rw [envSet_get _ _ hp, envSet_get _ _ hp, henv name hn]
            · rw [envSet_get _ _ (by decide), hs1]
      | _ => simp at e2
  obtain ⟨env', g1, g2, g3, g4⟩ := hpre
  obtain ⟨b1, m1, -, -⟩ := (exec_done e5).2 { step := "compute_pspec", sig := sigVcsPspec, args :=
    [("use_pyfftw", "use_pyfftw"), ("threads", "threads")], star := ["pyfftw_kwargs"] } (by simp [runVcs]) rfl
  obtain ⟨b2, m2, -, -⟩ := (exec_done e5).2 { step := "fit_pspec", sig := sigVcsFit, star := ["**"] } (by simp [runVcs]) rfl
  have m1' : makeCall env' { step := "compute_pspec", sig := sigVcsPspec, args :=
      [("use_pyfftw", "use_pyfftw"), ("threads", "threads")], star := ["pyfftw_kwargs"] } = .ok b1 := by
    rw [← m1]
    simp only [makeCall, starKw, List.map_cons, List.map_nil]
    rw [g2 "pyfftw_kwargs" (by decide), g2 "use_pyfftw" (by decide), g2 "threads" (by decide)]
  have m2' : makeCall env' { step := "fit_pspec", sig := sigVcsFit, star := ["**"] } = .ok ⟨b2.args, b2.extra ++ [(k, v)]⟩ := by
    simp only [makeCall, starKw, List.map_nil, List.nil_append, g4, List.append_nil] at m2
    simp only [makeCall, starKw, List.map_nil, List.nil_append, g3, List.append_nil]
    apply bindApp sigVcsFit b.extra b2 rfl h2 _ m2
    rw [bind_extra e1]
    refine List.Sublist.nodup ?_ hnd'
    rw [List.map_append, List.map_append]
    exact List.Sublist.append (List.Sublist.map _ List.filter_sublist) (List.Sublist.refl _)
  have hlhs : execRun hb runVcs (kw ++ [(k, v)]) = ⟨[⟨"compute_pspec", b1⟩, ⟨"fit_pspec", ⟨b2.args, b2.extra ++ [(k, v)]⟩⟩], none, env'⟩ := by
    unfold execRun
    simp only [f1, g1]
    simp only [runVcs, execCalls, guarded, List.all_nil, if_true, m1', m2']
  have hrhs : execRun hb runVcs kw = ⟨[⟨"compute_pspec", b1⟩, ⟨"fit_pspec", b2⟩], none, env⟩ := by
    unfold execRun
    simp only [e1, e2]
    simp only [runVcs, execCalls, guarded, List.all_nil, if_true, m1, m2]
  rw [hlhs, hrhs]
  exact ⟨rfl, rfl⟩

/-- `Dendrogram_Stats.run(save_results=True)` without a file name always raises, at the very end. -/
theorem C84_dendro_save_violated {hb : Option OVal} {kw : KwArgs} (hs : isOn runDendro.sig kw "save_results" = true)
    (hn : ∀ s, option runDendro.sig kw "output_name" ≠ some (.str s)) : (execRun hb runDendro kw).err ≠ none := by
  intro herr
  obtain ⟨b, env, e1, e2, -, -, e5⟩ := run_done herr
  have hpre : ∀ name, ∀ op ∈ runDendro.pre, name ≠ preTarget op := by
    intro name op hop
    simp [runDendro] at hop
  have hmem : ({ step := "save_results", sig := sigSaveResults, args := [("output_name", "output_name")], guards :=
      [("save_results", true)], body := saveResultsBody } : CallDef) ∈ runDendro.calls := by simp [runDendro]
  obtain ⟨d, hd, hbody, -⟩ := (exec_done e5).2 _ hmem (by
    simp only [guarded, List.all_cons, List.all_nil, Bool.and_true]
    rw [env_get e1 e2 (hpre _) (by decide +kernel)]
    simpa [isOn] using hs)
  have := call_arg hd (k := "output_name") (o := "output_name") (by simp) (by decide +kernel)
  rw [env_get e1 e2 (hpre _) (by decide +kernel)] at this
  simp only [saveResultsBody, this] at hbody
  obtain ⟨e, he⟩ := mem_names (s := runDendro.sig) (name := "output_name") (by decide +kernel)
  split at hbody
  · rename_i s hs'
    simp only [Option.some.injEq] at hs'
    apply hn s
    rw [← hs']
    simp [option, he]
  · cases hbody

/-- `run` gives back the statistic, so that calls can be chained, except for `Dendrogram_Stats`, whose `run` gives `None`. -/
theorem C84_returns_violated : runDendro.returnsSelf = false ∧ ∀ r ∈ allRuns, r.cls ≠ "Dendrogram_Stats" → r.returnsSelf = true := by
  refine ⟨rfl, ?_⟩
  decide +kernel

/-! ### example -/

/-- A run with options of all kinds: it completes, and the fit gets both a limit and a dictionary entry. -/
example : (execRun none runScf [("xlow", .num 3), ("fit_kwargs", .dict [("bootstrap", .bool true)]), ("fit_2D", .bool false)]).err = none ∧
    (execRun none runScf [("xlow", .num 3), ("fit_kwargs", .dict [("bootstrap", .bool true)]), ("fit_2D", .bool false)]).events.map
      (·.step) = ["compute_surface", "compute_spectrum", "fit_plaw"] := by
  constructor <;> rfl

example : (execRun none runPspec [("fit_kwargs", .dict [("fit_unbinned", .bool true)])]).err = none := by rfl

example : (execRun none runVcs [("xlo", .num 3)]).err = none := by rfl

end TS
