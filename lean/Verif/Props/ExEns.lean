import Verif.Spec.Ens
import Mathlib.Algebra.Order.Ring.Rat

/-! # Concrete ensembles used as examples beside the theorems -/

set_option linter.unusedSectionVars false
set_option autoImplicit false

namespace Verif.Props.ExEns

open Verif Verif.Np Verif.Model Verif.Spec

/-- an array of rational numbers -/
def qarr (shape : List ℕ) (l : List ℚ) : Val ℚ := .arr ⟨shape, nums l⟩

/-- three histograms on the bin edges 0, 1, 3 -/
def histData : Dict ℚ := [("bins", qarr [3] [0, 1, 3]), ("pdfs", qarr [3, 2] [1, 1, 2, 0, 0, 5])]

/-- what the ensemble stores: heights divided by the area of the histogram -/
def histFrozen : Frozen ℚ where
  metadata := [("pdf_name", .arr ⟨[1], [.bytes "hist"]⟩), ("pdf_version", qarr [1] [0]), ("bins", qarr [1, 3] [0, 1, 3])]
  objdata := [("pdfs", qarr [3, 2] [1/3, 1/3, 1, 0, 0, 1/2])]
  npdf := 3
  shape := [3]

/-- the ensemble, with ancillary data -/
def histEns (anc : Option (Dict ℚ)) : Ens ℚ := ⟨rowCreate histCls, rowCreate histCls, histFrozen, anc⟩

theorem histCreate : rowCreate histCls histData = .ok histFrozen := by decide +kernel

theorem histMade (anc : Option (Dict ℚ)) (h : checkArrayShapes anc 3 = .ok ()) : Made .hist histData anc (histEns anc) where
  ok := by
    show mkEns (rowCreate histCls) (rowCreate histCls) histData anc = _
    simp only [mkEns, histCreate, Bind.bind, Except.bind]
    rw [show histFrozen.npdf = 3 from rfl, h]
    rfl
  plain := by
    intro v hv
    have : Dict.get? histData "bins" = some (qarr [3] [0, 1, 3]) := by decide +kernel
    rw [this] at hv
    obtain rfl := Option.some.inj hv
    decide +kernel
  wf := by
    show ∀ p ∈ histData, p.2.toArr.Wf
    decide +kernel

theorem histReach (anc : Option (Dict ℚ)) (h : checkArrayShapes anc 3 = .ok ()) : Reach .hist (histEns anc) := .made (histMade anc h)

/-- ancillary columns: one number per PDF, and three numbers per PDF -/
def narrow : Dict ℚ := [("id", qarr [3] [10, 20, 30])]
def wide : Dict ℚ := [("mag", qarr [3, 2] [1, 2, 3, 4, 5, 6])]

theorem narrow_cols : AncilCols narrow 3 := by
  intro p hp
  rw [List.mem_singleton.1 hp]
  exact ⟨_, rfl, by decide +kernel, rfl⟩

theorem wide_cols : AncilCols wide 3 := by
  intro p hp
  rw [List.mem_singleton.1 hp]
  exact ⟨_, rfl, by decide +kernel, rfl⟩

/-- two quantile distributions -/
def quantData : Dict ℚ := [("quants", qarr [3] [0, 1/2, 1]), ("locs", qarr [2, 3] [0, 1, 2, 0, 1, 4])]

end Verif.Props.ExEns
