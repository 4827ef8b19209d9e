import Verif.Model.ShotFiles

/-!
# Names of the files that record the choice of shots

A file name is a list of characters. The name from the configuration, `SourceFilename` or `ReceiverFilename` of the configuration or of
the stream configuration, is given as `base`.
-/
namespace Verif.RecordNames
open Verif
open Verif.ShotFile

/-- Sources.cpp:776-777 and 818-819, Receivers.cpp:321-322. -/
def staged (base : List Char) (stage it : Int) : List Char :=
  if stage ≠ 0 then base ++ (".stage_".toList ++ showInt stage ++ ".It_".toList ++ showInt it) else base

/-- The name in `writeShotIndsIncr`, Sources.cpp:735-737. -/
def incrName (base : List Char) : List Char := base ++ ".shotIncr.txt".toList

/-- The name in `writeSourceEncode`, Sources.cpp:776-779. -/
def encodeName (base : List Char) (stage it : Int) : List Char := staged base stage it ++ ".encode.txt".toList

/-- The name in `writeSourceFC`, Sources.cpp:818-821. -/
def fcName (base : List Char) (stage it : Int) : List Char := staged base stage it ++ ".sourceFC.txt".toList

/-- The name in `writeReceiverMark`, Receivers.cpp:321-326, with the extension that `writeVector` appends for format 1,
IO/IO.hpp:26-27. -/
def markName (base : List Char) (shot stage it : Int) : List Char :=
  staged base stage it ++ ".shot_".toList ++ showInt shot ++ ".mark".toList ++ ".mtx".toList

/-- The text files of sources and receivers, Sources.cpp:514 and Receivers.cpp:214. -/
def acqName (base : List Char) : List Char := base ++ ".txt".toList

/-- The text file of the receivers of one shot, Receivers.cpp:231-240. -/
def shotAcqName (base : List Char) (shot : Int) : List Char := base ++ ".shot_".toList ++ showInt shot ++ ".txt".toList

/-- The matrix of marks, Receivers.cpp:261-269, with the extension of `readMatrix` for format 1. -/
def markMatrixName (base : List Char) : List Char := base ++ ".mark".toList ++ ".mtx".toList

end Verif.RecordNames
