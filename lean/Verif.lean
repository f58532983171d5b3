import Verif.Props.Basic
import Verif.Props.BasicRun
import Verif.Props.Basin
import Verif.Props.Calendar
import Verif.Props.CallModules
import Verif.Props.Chem
import Verif.Props.Climate
import Verif.Props.CmdLine
import Verif.Props.Control
import Verif.Props.DataLine
import Verif.Props.Elements
import Verif.Props.EndPer
import Verif.Props.FString
import Verif.Props.Formula
import Verif.Props.Growth
import Verif.Props.IPhreeqc
import Verif.Props.Intcp
import Verif.Props.Lines
import Verif.Props.Mms
import Verif.Props.NameDouble
import Verif.Props.ObsChem
import Verif.Props.Output
import Verif.Props.ParFile
import Verif.Props.Params
import Verif.Props.Precip
import Verif.Props.Reservoir
import Verif.Props.Route
import Verif.Props.SelOut
import Verif.Props.Snow
import Verif.Props.Solar
import Verif.Props.SolnNum
import Verif.Props.Soltab
import Verif.Props.StorageBinList
import Verif.Props.Summary
import Verif.Props.SummaryBasin
import Verif.Props.SummaryStep
import Verif.Props.Tables
import Verif.Props.Tally
import Verif.Props.TimeLoop
import Verif.Props.Top2c
import Verif.Props.Topmod
import Verif.Props.Transport
import Verif.Props.TransportBasin
import Verif.Props.TransportChem
import Verif.Props.TransportLog
import Verif.Props.TransportMru
import Verif.Props.TransportRiver
import Verif.Props.TspCompare
import Verif.Props.TspControl
import Verif.Props.TspDate
import Verif.Props.TspEquation
import Verif.Props.TspFilter
import Verif.Props.TspGage
import Verif.Props.TspHysep
import Verif.Props.TspInterp
import Verif.Props.TspNames
import Verif.Props.TspPeak
import Verif.Props.TspPeriod
import Verif.Props.TspSample
import Verif.Props.TspSort
import Verif.Props.TspStat
import Verif.Props.TspStatvar
import Verif.Props.TspText
import Verif.Props.TspTransform
import Verif.Props.TspUfore
import Verif.Props.TspUniform
import Verif.Props.VarFile
import Verif.Axioms
