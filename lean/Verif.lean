import Verif.Lemmas.Agree
import Verif.Lemmas.Case
import Verif.Lemmas.Cut
import Verif.Lemmas.Damaged
import Verif.Lemmas.Dict
import Verif.Lemmas.Exits
import Verif.Lemmas.Floats
import Verif.Lemmas.Incar
import Verif.Lemmas.Incar2
import Verif.Lemmas.IncarWrite
import Verif.Lemmas.Kpoints
import Verif.Lemmas.NpText
import Verif.Lemmas.Num
import Verif.Lemmas.NumClass
import Verif.Lemmas.Ok
import Verif.Lemmas.Poscar
import Verif.Lemmas.Raises
import Verif.Lemmas.Regex
import Verif.Lemmas.RegexSearch
import Verif.Lemmas.Repr
import Verif.Lemmas.Str
import Verif.Lemmas.Words
import Verif.Model.Base
import Verif.Model.Bytes
import Verif.Model.Chgcar
import Verif.Model.ChgcarFull
import Verif.Model.ChgcarMachine
import Verif.Model.Doscar
import Verif.Model.DoscarFull
import Verif.Model.Effects
import Verif.Model.Eigenval
import Verif.Model.EigenvalFull
import Verif.Model.Files
import Verif.Model.Floats
import Verif.Model.Handler
import Verif.Model.Incar
import Verif.Model.IncarHeap
import Verif.Model.IndexArg
import Verif.Model.Kpoints
import Verif.Model.KpointsDict
import Verif.Model.KpointsHeap
import Verif.Model.Lattice
import Verif.Model.Newlines
import Verif.Model.NpText
import Verif.Model.Outcar
import Verif.Model.OutcarFull
import Verif.Model.Output
import Verif.Model.Poscar
import Verif.Model.PoscarCounts
import Verif.Model.PoscarHeap
import Verif.Model.PoscarMachine
import Verif.Model.Potcar
import Verif.Model.Results
import Verif.Model.Stream
import Verif.Model.StreamRegex
import Verif.Model.StreamYml
import Verif.Model.Tables
import Verif.Model.Utils
import Verif.Model.VaspStream
import Verif.Model.Vasprun
import Verif.Model.VasprunApi
import Verif.Model.VasprunDict
import Verif.Model.VasprunEvent
import Verif.Model.Xml
import Verif.Props.Base
import Verif.Props.BlankEnd
import Verif.Props.BlankKpoints
import Verif.Props.BlankOutput
import Verif.Props.BlankPoscar
import Verif.Props.Bytes
import Verif.Props.Case
import Verif.Props.CaseIncar
import Verif.Props.CaseOut
import Verif.Props.Chgcar
import Verif.Props.ChgcarAccuracy
import Verif.Props.ChgcarBinary
import Verif.Props.ChgcarMachine
import Verif.Props.CountsChgcar
import Verif.Props.CountsDoscar
import Verif.Props.CountsEigenval
import Verif.Props.CountsKpoints
import Verif.Props.CountsPoscar
import Verif.Props.CutChgcar
import Verif.Props.CutChgcarInside
import Verif.Props.CutDoscar
import Verif.Props.CutDoscarInside
import Verif.Props.CutEigenval
import Verif.Props.CutEigenvalInside
import Verif.Props.CutIncar
import Verif.Props.CutKpoints
import Verif.Props.CutKpointsInside
import Verif.Props.CutOutcar
import Verif.Props.CutPoscar
import Verif.Props.CutPoscarInside
import Verif.Props.CutPotcar
import Verif.Props.CutStream
import Verif.Props.CutVasprun
import Verif.Props.CutVasprunData
import Verif.Props.CutVasprunExamples
import Verif.Props.CutVasprunSteps
import Verif.Props.DamagedFields
import Verif.Props.DamagedText
import Verif.Props.Doscar
import Verif.Props.DoscarAccepts
import Verif.Props.Effects
import Verif.Props.Eigenval
import Verif.Props.EigenvalAccepts
import Verif.Props.EventAgree
import Verif.Props.EventBasics
import Verif.Props.EventDoc
import Verif.Props.EventDos
import Verif.Props.EventDosAgree
import Verif.Props.EventEnergies
import Verif.Props.EventExample
import Verif.Props.EventFrame
import Verif.Props.EventHead
import Verif.Props.EventInterp
import Verif.Props.EventKinds
import Verif.Props.EventKpoints
import Verif.Props.EventLast
import Verif.Props.EventOnce
import Verif.Props.EventResponse
import Verif.Props.EventSeen
import Verif.Props.EventSpecial
import Verif.Props.EventStep
import Verif.Props.EventSteps
import Verif.Props.EventTables
import Verif.Props.EventViolations
import Verif.Props.Exceptions
import Verif.Props.ExceptionsXml
import Verif.Props.ExitCodes
import Verif.Props.ExitCodesRead
import Verif.Props.Files
import Verif.Props.FinalNewline
import Verif.Props.FinalNewlineOut
import Verif.Props.Handler
import Verif.Props.IncarAccepts
import Verif.Props.IncarDict
import Verif.Props.IncarEdited
import Verif.Props.IncarExact
import Verif.Props.IncarHeap
import Verif.Props.IncarMap
import Verif.Props.IncarParse
import Verif.Props.IncarValue
import Verif.Props.IncarWrite
import Verif.Props.IndexArg
import Verif.Props.Killed
import Verif.Props.KpointsAccepts
import Verif.Props.KpointsDict
import Verif.Props.KpointsEdit
import Verif.Props.KpointsEdited
import Verif.Props.KpointsHeap
import Verif.Props.KpointsRound
import Verif.Props.KpointsString
import Verif.Props.KpointsTyped
import Verif.Props.Lattice
import Verif.Props.LatticeRound
import Verif.Props.LineEnds
import Verif.Props.LineEndsOut
import Verif.Props.LineEndsPotcar
import Verif.Props.LineEndsStream
import Verif.Props.Modify
import Verif.Props.Outcar
import Verif.Props.OutcarAccepts
import Verif.Props.OutcarTables
import Verif.Props.OutcarVerdict
import Verif.Props.Output
import Verif.Props.OutputText
import Verif.Props.PoscarAccepts
import Verif.Props.PoscarCell
import Verif.Props.PoscarComment
import Verif.Props.PoscarCounts
import Verif.Props.PoscarEdit
import Verif.Props.PoscarEdited
import Verif.Props.PoscarGroup
import Verif.Props.PoscarHeader
import Verif.Props.PoscarHeap
import Verif.Props.PoscarKept
import Verif.Props.PoscarMachine
import Verif.Props.PoscarMotion
import Verif.Props.PoscarRead
import Verif.Props.PoscarRound
import Verif.Props.PoscarTyped
import Verif.Props.Positions
import Verif.Props.Potcar
import Verif.Props.PotcarAccepts
import Verif.Props.Regex
import Verif.Props.RegexMore
import Verif.Props.Results
import Verif.Props.Sources
import Verif.Props.SourcesGiven
import Verif.Props.SourcesWritable
import Verif.Props.Spacing
import Verif.Props.SpacingChgcar
import Verif.Props.SpacingIncar
import Verif.Props.SpacingInput
import Verif.Props.SpacingOutput
import Verif.Props.SpecialEigenval
import Verif.Props.SpecialOutcar
import Verif.Props.SpecialOutcarAccepts
import Verif.Props.StableFloats
import Verif.Props.StableIncar
import Verif.Props.StableKpoints
import Verif.Props.StablePoscar
import Verif.Props.Stream
import Verif.Props.StreamApi
import Verif.Props.StreamConfig
import Verif.Props.StreamHistory
import Verif.Props.Utils
import Verif.Props.VaspStream
import Verif.Props.VasprunApi
import Verif.Props.VasprunBasics
import Verif.Props.VasprunColumns
import Verif.Props.VasprunDict
import Verif.Props.VasprunDos
import Verif.Props.VasprunEigen
import Verif.Props.VasprunEnergies
import Verif.Props.VasprunFile
import Verif.Props.VasprunLattice
import Verif.Props.VasprunObject
import Verif.Props.VasprunOther
import Verif.Props.VasprunProj
import Verif.Props.VasprunRows
import Verif.Props.VasprunStatus
import Verif.Props.VasprunSteps
import Verif.Py.Dict
import Verif.Py.Num
import Verif.Py.Res
import Verif.Py.Str
import Verif.Spec.Incar
import Verif.Spec.Regex
