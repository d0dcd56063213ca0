import Verif.Model.EqCatalog

/-!
# Model of mtoolkit/source_model.py

Value objects of an area source.  Text attributes are `Option Text` (`None` is the initial value in
mtoolkit/source_model.py:50-59 and what lxml delivers for a missing attribute or an empty element).
-/

namespace Verif.Nrml

open Verif Verif.EqCatalog

/-- `POINT` (mtoolkit/source_model.py:28). -/
structure Point (F : Type) where
  lon : F
  lat : F
deriving DecidableEq, Repr

/-- `AREA_BOUNDARY` (mtoolkit/source_model.py:30). -/
structure AreaBoundary (F : Type) where
  srsName : Option Text
  posList : List (Point F)
deriving DecidableEq, Repr

/-- `TRUNCATED_GUTEN_RICHTER` (mtoolkit/source_model.py:32-34). -/
structure Tgr (F : Type) where
  aValue : F
  bValue : F
  minMagnitude : F
  maxMagnitude : F
  typeTgr : Option Text
deriving DecidableEq, Repr

/-- `RUPTURE_RATE_MODEL` (mtoolkit/source_model.py:36-37). -/
structure RateModel (F : Type) where
  tgr : Tgr F
  strike : F
  dip : F
  rake : F
deriving DecidableEq, Repr

/-- `MAGNITUDE` (mtoolkit/source_model.py:39). -/
structure Magnitude (F : Type) where
  typeMag : Option Text
  values : List F
deriving DecidableEq, Repr

/-- `RUPTURE_DEPTH_DISTRIB` (mtoolkit/source_model.py:41-42). -/
structure DepthDistrib (F : Type) where
  magnitude : Magnitude F
  depth : List F
deriving DecidableEq, Repr

/-- `AreaSource` (mtoolkit/source_model.py:45-89), after all its attributes were set; `__eq__` is equality of all nine
attributes, which is equality of this structure. -/
structure AreaSource (F : Type) where
  nrmlId : Option Text
  sourceModelId : Option Text
  areaSourceId : Option Text
  name : Option Text
  tectonicRegion : Option Text
  boundary : AreaBoundary F
  rate : RateModel F
  depthDist : DepthDistrib F
  hypocentralDepth : F
deriving DecidableEq, Repr

/-- The default string `"MTK"` (mtoolkit/source_model.py:95). -/
def mtk : Text := ['M', 'T', 'K']

/-- `default_area_source` (mtoolkit/source_model.py:92-121).  Simplified: the two coordinates of the default point are Python ints in the
code, numbers of `F` here. -/
def defaultAreaSource {F : Type} [PyNum F] : AreaSource F where
  nrmlId := some mtk
  sourceModelId := some mtk
  areaSourceId := some mtk
  name := some mtk
  tectonicRegion := some mtk
  boundary := ⟨some mtk, [⟨((0 : ℕ) : F), ((0 : ℕ) : F)⟩]⟩
  rate := ⟨⟨0.0, 0.0, 0.0, 0.0, some mtk⟩, 0.0, 90.0, 0.0⟩
  depthDist := ⟨⟨some mtk, [6.5]⟩, [5000.0]⟩
  hypocentralDepth := 5000.0

end Verif.Nrml
