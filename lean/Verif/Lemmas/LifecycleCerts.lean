import Verif.Lemmas.LifecycleTables

/-!
# The outcome of the analysis for each statistic

Numbers are sets of attributes, as bits.  `Cert.ok` recomputes them.
-/

namespace TS
namespace Life

section
open PowerSpectrum

def PowerSpectrum.cert : Cert where
  has := 536870919
  val := 536870915
  blanks := 1073889280
  after := [
    ({ m := M.compute_radial_pspec }, 536871543, 536871527),
    ({ m := M.run }, 1611004535, 537246327),
    ({ m := M.fit_pspec }, 1611003911, 537245699),
    ({ m := M.fit_2Dpspec }, 1071656983, 1071656963),
    ({ m := M.run, yes := [O.fit_2D] }, 2145778295, 1072020087),
    ({ m := M.compute_pspec }, 536870935, 536870931),
    ({ m := M.fit_pspec, yes := [O.brk_is_None] }, 1611134983, 537245699)]

end

section
open VCA

def VCA.cert : Cert where
  has := 11
  val := 3
  blanks := 537018368
  after := [
    ({ m := M.compute_radial_pspec }, 635, 619),
    ({ m := M.run }, 537262715, 375419),
    ({ m := M.fit_pspec }, 537262091, 374787),
    ({ m := M.fit_2Dpspec }, 534786075, 534786051),
    ({ m := M.run, yes := [O.fit_2D] }, 1072036475, 535149179),
    ({ m := M.compute_pspec }, 27, 19),
    ({ m := M.fit_pspec, yes := [O.brk_is_None] }, 537393163, 374787)]

end

section
open MVC

def MVC.cert : Cert where
  has := 117
  val := 117
  blanks := 4297326592
  after := [
    ({ m := M.compute_radial_pspec }, 10229, 10101),
    ({ m := M.run }, 4301236213, 6006773),
    ({ m := M.fit_pspec }, 4301226101, 5996661),
    ({ m := M.fit_2Dpspec }, 4278386933, 4278386805),
    ({ m := M.run, yes := [O.fit_2D] }, 8579426293, 4284196853),
    ({ m := M.compute_pspec }, 245, 245),
    ({ m := M.fit_pspec, yes := [O.brk_is_None] }, 4303323253, 5996661)]

end

section
open VCS

def VCS.cert : Cert where
  has := 2063
  val := 2063
  blanks := 0
  after := [
    ({ m := M.compute_pspec }, 2079, 2079),
    ({ m := M.run }, 4095, 4095),
    ({ m := M.fit_pspec }, 4095, 4079)]

end

section
open Wavelet

def Wavelet.cert : Cert where
  has := 16389
  val := 16389
  blanks := 264
  after := [
    ({ m := M.compute_transform }, 16445, 16437),
    ({ m := M.run }, 30717, 30453),
    ({ m := M.fit_transform }, 30677, 30405)]

end

section
open DeltaVariance

def DeltaVariance.cert : Cert where
  has := 262267
  val := 262243
  blanks := 4096
  after := [
    ({ m := M.compute_deltavar }, 262651, 262627),
    ({ m := M.run }, 491003, 486883),
    ({ m := M.fit_plaw }, 491003, 486499)]

end

section
open SCF

def SCF.cert : Cert where
  has := 33554750
  val := 33554694
  blanks := 512
  after := [
    ({ m := M.compute_spectrum }, 33555454, 33554910),
    ({ m := M.run }, 33684478, 33683934),
    ({ m := M.fit_plaw }, 33683966, 33683718),
    ({ m := M.fit_2Dplaw }, 66984382, 66984230),
    ({ m := M.run, yes := [O.fit_2D] }, 67107838, 67107326),
    ({ m := M.compute_surface }, 33554750, 33554702)]

end

section
open PCA

def PCA.cert : Cert where
  has := 7
  val := 7
  blanks := 65568
  after := [
    ({ m := M.n_eigs__set }, 23, 23),
    ({ m := M.compute_pca }, 4087, 4055),
    ({ m := M.run }, 4087, 4055),
    ({ m := M.fit_plaw }, 16248871, 16121895),
    ({ m := M.run, no := [O.decomp_only] }, 16252919, 16187383),
    ({ m := M.find_spatial_widths }, 12311, 12295),
    ({ m := M.find_spectral_widths }, 49175, 49159)]

end

section
open PDF

def PDF.cert : Cert where
  has := 503
  val := 23
  blanks := 32
  after := [
    ({ m := M.make_pdf }, 503, 119),
    ({ m := M.make_ecdf }, 1015, 727),
    ({ m := M.run }, 1015, 759),
    ({ m := M.find_percentile }, 1015, 151),
    ({ m := M.fit_pdf }, 7671, 7447),
    ({ m := M.run, yes := [O.do_fit] }, 8183, 8183)]

end

section
open Tsallis

def Tsallis.cert : Cert where
  has := 518
  val := 518
  blanks := 0
  after := [
    ({ m := M.make_tsallis }, 542, 542),
    ({ m := M.run }, 1022, 1022),
    ({ m := M.fit_tsallis }, 1014, 998)]

end

section
open StatMoments

def StatMoments.cert : Cert where
  has := 131099
  val := 131099
  blanks := 0
  after := [
    ({ m := M.compute_spatial_distrib }, 138779, 138779),
    ({ m := M.run }, 262139, 262139),
    ({ m := M.make_spatial_histograms }, 261659, 253979)]

end

section
open Genus

def Genus.cert : Cert where
  has := 59
  val := 59
  blanks := 64
  after := [
    ({ m := M.make_genus_curve }, 955, 955),
    ({ m := M.run }, 955, 955),
    ({ m := M.make_genus_curve, yes := [O.keep_smoothed_images] }, 1019, 955)]

end

section
open Dendrogram_Stats

def Dendrogram_Stats.cert : Cert where
  has := 2055
  val := 2055
  blanks := 16
  after := [
    ({ m := M.compute_dendro }, 2079, 2063),
    ({ m := M.run }, 4063, 4047),
    ({ m := M.make_hists }, 2103, 2087),
    ({ m := M.run, yes := [O.make_hists] }, 4095, 4079),
    ({ m := M.fit_numfeat }, 4047, 4039)]

end

section
open Bispectrum

def Bispectrum.cert : Cert where
  has := 7
  val := 7
  blanks := 0
  after := [
    ({ m := M.compute_bispectrum }, 127, 127),
    ({ m := M.run }, 127, 127)]

end

end Life
end TS
