import Verif.Lemmas.Lifecycle
import Verif.Spec.LifecycleTables

/-!
# Checking the table of a statistic
-/

namespace TS
namespace Life

/-- The method only returns attribute `a`. -/
def plainRead (a : ℕ) : Cmd → Bool
  | .seq (.get b) .ret => b == a
  | _ => false

theorem plainRead_eq {a : ℕ} {c : Cmd} (h : plainRead a c = true) : c = .seq (.get a) .ret := by
  unfold plainRead at h
  split at h
  · simp only [beq_iff_eq] at h; rw [h]
  · cases h

def Cert.resultOk (K : Cert) (C : Cls) (r : Result) : Bool :=
  C.onlyFrom r.attr r.makers && plainRead r.attr (C.body r.prop) && K.ready C r

def Cert.derivedOk (K : Cert) (C : Cls) (r : Result) : Bool :=
  C.onlyFrom r.attr r.makers && mustRead (storesN C.body depth) r.attr (C.body r.prop) &&
    K.ready C r

def Cert.optionalOk (K : Cert) (C : Cls) (r : Result) : Bool :=
  C.onlyFrom r.attr r.makers && mustRead (storesN C.body depth) r.attr (C.body r.prop) &&
    K.present C r

theorem holds_of {C : Cls} {T : Table} (K : Cert) (hc : C.closed = true) (hi : C.initOk = true)
    (hK : K.ok C = true)
    (hr : T.results.all (K.resultOk C) = true) (hd : T.derived.all (K.derivedOk C) = true)
    (ho : T.optional.all (K.optionalOk C) = true) (hp : T.placeholders.all (K.ready C) = true)
    (hu : T.order.all (fun u => K.usable C u.1 u.2.1 u.2.2) = true)
    (hq : T.readers.all C.quiet = true) : T.Holds C where
  init := initNeverMisses_of hi
  results r hm := by
    have := List.all_eq_true.1 hr r hm
    simp only [Cert.resultOk, Bool.and_eq_true] at this
    exact ⟨notBefore_of hc this.1.1 (plainRead_eq this.1.2), readyAfter_of hc hK this.2⟩
  derived r hm := by
    have := List.all_eq_true.1 hd r hm
    simp only [Cert.derivedOk, Bool.and_eq_true] at this
    exact ⟨notBeforeFails_of hc this.1.1 this.1.2, readyAfter_of hc hK this.2⟩
  optional r hm := by
    have := List.all_eq_true.1 ho r hm
    simp only [Cert.optionalOk, Bool.and_eq_true] at this
    exact ⟨notBeforeFails_of hc this.1.1 this.1.2, presentAfter_of hc hK this.2⟩
  placeholders r hm := readyAfter_of hc hK (List.all_eq_true.1 hp r hm)
  order u hm := usableAfter_of hc hK (List.all_eq_true.1 hu u hm)
  readers m hm := onlyReads_of hc (List.all_eq_true.1 hq m hm)

end Life
end TS
