import Verif.Adapt.Lemmas
import Verif.Adapt.Model
import Verif.Adapt.Props
import Verif.Adapt.Spec
import Verif.Advance.Lemmas
import Verif.Advance.Loop
import Verif.Advance.Model
import Verif.Advance.Props
import Verif.Advance.Spec
import Verif.App.Model
import Verif.App.Props
import Verif.App.Spec
import Verif.ArrayBox.Lemmas
import Verif.ArrayBox.Model
import Verif.ArrayBox.Props
import Verif.ArrayBox.Spec
import Verif.Ascii.Cells
import Verif.Ascii.Files
import Verif.Ascii.Model
import Verif.Ascii.Numbers
import Verif.Ascii.Props
import Verif.Ascii.Read
import Verif.Ascii.Spec
import Verif.AuxPack.Lemmas
import Verif.AuxPack.Model
import Verif.AuxPack.Props
import Verif.Bc.Lemmas
import Verif.Bc.Model
import Verif.Bc.Props
import Verif.Bc.Spec
import Verif.Bc3.Lemmas
import Verif.Bc3.Model
import Verif.Bc3.Props
import Verif.Bc3.Spec
import Verif.BlockFace.Lemmas
import Verif.BlockFace.Model
import Verif.BlockFace.Props
import Verif.BlockFace.Spec
import Verif.Brick.Model
import Verif.Brick.Props
import Verif.Brick.Spec
import Verif.CellAve.Exact
import Verif.CellAve.Lemmas
import Verif.CellAve.Line
import Verif.CellAve.Model
import Verif.CellAve.Props
import Verif.CellAve.Spec
import Verif.CoarseFine.Cells
import Verif.CoarseFine.Lemmas
import Verif.CoarseFine.Model
import Verif.CoarseFine.Ops
import Verif.CoarseFine.Props
import Verif.CoarseFine.Spec
import Verif.Conserve.Lemmas
import Verif.Conserve.Model
import Verif.Conserve.Pairing
import Verif.Conserve.Props
import Verif.Conserve.Spec
import Verif.CopyGhost.Lemmas
import Verif.CopyGhost.Model
import Verif.CopyGhost.Props
import Verif.CopyGhost.Spec
import Verif.CopyGhost.Update
import Verif.CopyGhost.UpdateLemmas
import Verif.Correction.F2c
import Verif.Correction.Index
import Verif.Correction.Interface
import Verif.Correction.Model
import Verif.Correction.Props
import Verif.Correction.Same
import Verif.Correction.Spec
import Verif.Correction.Steps
import Verif.DataFile.Model
import Verif.DataFile.Props
import Verif.DataFile.Spec
import Verif.Diag.Lemmas
import Verif.Diag.Model
import Verif.Diag.Props
import Verif.Diag.Spec
import Verif.Domain.BlockLemmas
import Verif.Domain.Lemmas
import Verif.Domain.Model
import Verif.Domain.Props
import Verif.Domain.Spec
import Verif.Dtopo.Ground
import Verif.Dtopo.Lemmas
import Verif.Dtopo.Model
import Verif.Dtopo.Props
import Verif.Dtopo.Spec
import Verif.DtopoRead.Lemmas
import Verif.DtopoRead.Model
import Verif.DtopoRead.Props
import Verif.DtopoRead.Spec
import Verif.Edge.Lemmas
import Verif.Edge.Model
import Verif.Edge.Props
import Verif.Edge.Spec
import Verif.Elliptic.Bc
import Verif.Elliptic.Energy
import Verif.Elliptic.Lemmas
import Verif.Elliptic.Model
import Verif.Elliptic.Props
import Verif.Elliptic.Rhs
import Verif.Elliptic.Solve
import Verif.Elliptic.Spec
import Verif.Exchange.Lemmas
import Verif.Exchange.Model
import Verif.Exchange.Props
import Verif.Exchange.Spec
import Verif.Extrude.Exchange
import Verif.Extrude.Lens
import Verif.Extrude.Model
import Verif.Extrude.Props
import Verif.Extrude.Routines
import Verif.Extrude.Spec
import Verif.Extrude.Steps
import Verif.FaceNbr.Model
import Verif.FaceNbr.Props
import Verif.FaceNbr.Spec
import Verif.Fort.Basic
import Verif.Fort.Loops
import Verif.Friction.Lemmas
import Verif.Friction.Model
import Verif.Friction.Props
import Verif.Friction.Spec
import Verif.Gauge.Lemmas
import Verif.Gauge.Model
import Verif.Gauge.PlaceLemmas
import Verif.Gauge.PlaceProps
import Verif.Gauge.Props
import Verif.Gauge.Spec
import Verif.GaugeRead.Lemmas
import Verif.GaugeRead.Model
import Verif.GaugeRead.Props
import Verif.GaugeRead.Spec
import Verif.Geo.Family
import Verif.Geo.Interp
import Verif.Geo.Merge
import Verif.Geo.Model
import Verif.Geo.Ops
import Verif.Geo.Props
import Verif.Geo.Spec
import Verif.GeoAscii.Lemmas
import Verif.GeoAscii.Model
import Verif.GeoAscii.Props
import Verif.GeoAscii.Spec
import Verif.GeoBc.Lemmas
import Verif.GeoBc.Model
import Verif.GeoBc.Props
import Verif.GeoBc.Sides
import Verif.GeoBc.Spec
import Verif.GeoDiag.Lemmas
import Verif.GeoDiag.Model
import Verif.GeoDiag.Props
import Verif.GeoGauge.Model
import Verif.GeoGauge.Props
import Verif.GeoGauge.Spec
import Verif.GeoParam.Model
import Verif.GeoParam.Props
import Verif.GeoParam.Spec
import Verif.GeoRun.Lemmas
import Verif.GeoRun.Model
import Verif.GeoRun.Props
import Verif.GeoRun.Replay
import Verif.GeoRun.Spec
import Verif.GeoStep.Balance
import Verif.GeoStep.Basin
import Verif.GeoStep.Lemmas
import Verif.GeoStep.Mass
import Verif.GeoStep.Model
import Verif.GeoStep.Props
import Verif.GeoStep.Rest
import Verif.GeoStep.Spec
import Verif.GeoTag.Lemmas
import Verif.GeoTag.Model
import Verif.GeoTag.Props
import Verif.GeoTag.Spec
import Verif.GhostAll.Cells
import Verif.GhostAll.Exec
import Verif.GhostAll.Model
import Verif.GhostAll.Props
import Verif.GhostAll.Spec
import Verif.GhostAll.Step
import Verif.GhostAll.Unique
import Verif.GhostFill.Count
import Verif.GhostFill.Example
import Verif.GhostFill.Final
import Verif.GhostFill.Lemmas
import Verif.GhostFill.Model
import Verif.GhostFill.Props
import Verif.GhostFill.Spec
import Verif.GhostFill.Stages
import Verif.GhostPack.Lemmas
import Verif.GhostPack.Model
import Verif.GhostPack.Props
import Verif.GhostPack.Spec
import Verif.Global.Lemmas
import Verif.Global.Model
import Verif.Global.Props
import Verif.Global.Spec
import Verif.HeaderText.Lemmas
import Verif.HeaderText.Lower
import Verif.HeaderText.Model
import Verif.HeaderText.Props
import Verif.HeaderText.Spec
import Verif.Indirect.Lemmas
import Verif.Indirect.Model
import Verif.Indirect.Props
import Verif.Indirect.Spec
import Verif.Invariance.Example
import Verif.Invariance.Lemmas
import Verif.Invariance.Model
import Verif.Invariance.Props
import Verif.Invariance.Spec
import Verif.Layout.Exchange
import Verif.Layout.Model
import Verif.Layout.Observe
import Verif.Layout.Ops
import Verif.Layout.Props
import Verif.Layout.Sim
import Verif.Layout.Spec
import Verif.Ledger.Lemmas
import Verif.Ledger.Model
import Verif.Ledger.Props
import Verif.Ledger.Spec
import Verif.Lifecycle.Model
import Verif.Lifecycle.Props
import Verif.Lifecycle.Spec
import Verif.Lifetime.Lemmas
import Verif.Lifetime.Model
import Verif.Lifetime.Props
import Verif.Lifetime.Spec
import Verif.Mapping.Cubed
import Verif.Mapping.Disk
import Verif.Mapping.Five
import Verif.Mapping.Model
import Verif.Mapping.Pillow
import Verif.Mapping.Props
import Verif.Mapping.Spec
import Verif.Metric.Lemmas
import Verif.Metric.Model
import Verif.Metric.Props
import Verif.Metric.Spec
import Verif.NbrType.Model
import Verif.NbrType.Props
import Verif.NbrType.Spec
import Verif.OptArray.Lemmas
import Verif.OptArray.Model
import Verif.OptArray.Props
import Verif.OptArray.Spec
import Verif.Options.Lemmas
import Verif.Options.Model
import Verif.Options.Props
import Verif.Options.Spec
import Verif.Output.After
import Verif.Output.Dist
import Verif.Output.Model
import Verif.Output.Sched
import Verif.Output.Spec
import Verif.Overlap.Lemmas
import Verif.Overlap.Model
import Verif.Overlap.Props
import Verif.Overlap.Spec
import Verif.Packing.Lemmas
import Verif.Packing.Model
import Verif.Packing.Props
import Verif.Packing.Spec
import Verif.ParFile.FaultLemmas
import Verif.ParFile.FaultModel
import Verif.ParFile.FaultProps
import Verif.ParFile.FaultSpec
import Verif.ParFile.Lemmas
import Verif.ParFile.Model
import Verif.ParFile.Props
import Verif.ParFile.ReadLemmas
import Verif.ParFile.Spec
import Verif.ParFile.WriteLemmas
import Verif.Parallel.Cfl
import Verif.Parallel.Congr
import Verif.Parallel.Det
import Verif.Parallel.Exist
import Verif.Parallel.Fresh
import Verif.Parallel.Model
import Verif.Parallel.Props
import Verif.Parallel.Schedule
import Verif.Parallel.Serial
import Verif.Parallel.Spec
import Verif.Partition.CountLemmas
import Verif.Partition.General
import Verif.Partition.Lemmas
import Verif.Partition.Model
import Verif.Partition.Props
import Verif.Partition.Spec
import Verif.Partition.TransferLemmas
import Verif.PatchInfo.Model
import Verif.PatchInfo.Props
import Verif.Perturb.Lemmas
import Verif.Perturb.Model
import Verif.Perturb.Props
import Verif.Perturb.Spec
import Verif.Pillow.Lemmas
import Verif.Pillow.Model
import Verif.Pillow.Props
import Verif.Pillow.Spec
import Verif.PointerMap.Lemmas
import Verif.PointerMap.Model
import Verif.PointerMap.Props
import Verif.PointerMap.Spec
import Verif.PowInt.Lemmas
import Verif.PowInt.Model
import Verif.PowInt.Props
import Verif.Rays.Lemmas
import Verif.Rays.Model
import Verif.Rays.Props
import Verif.Rays.Spec
import Verif.RegionRead.Model
import Verif.RegionRead.Props
import Verif.RegionRead.Spec
import Verif.Regrid.Model
import Verif.Regrid.Props
import Verif.Repopulate.Blocks
import Verif.Repopulate.Lemmas
import Verif.Repopulate.Model
import Verif.Repopulate.Props
import Verif.Repopulate.Spec
import Verif.Repopulate.Whole
import Verif.Run.Lemmas
import Verif.Run.Model
import Verif.Run.Props
import Verif.Run.Spec
import Verif.Search.Lemmas
import Verif.Search.Model
import Verif.Search.Props
import Verif.Search.Spec
import Verif.Serial.Model
import Verif.Serial.Props
import Verif.Smooth.Model
import Verif.Smooth.Props
import Verif.Smooth.Spec
import Verif.Sync5.Lemmas
import Verif.Sync5.Model
import Verif.Sync5.Props
import Verif.Sync5.Refine
import Verif.Sync5.Sim
import Verif.Sync5.Spec
import Verif.Tag.Lemmas
import Verif.Tag.Model
import Verif.Tag.Props
import Verif.Tag.Spec
import Verif.Tag3.Lemmas
import Verif.Tag3.Model
import Verif.Tag3.Props
import Verif.Tag3.Spec
import Verif.TeVector.Lemmas
import Verif.TeVector.Model
import Verif.TeVector.Props
import Verif.TeVector.Spec
import Verif.Tikz.Edges
import Verif.Tikz.Files
import Verif.Tikz.Model
import Verif.Tikz.Props
import Verif.Tikz.Read
import Verif.Tikz.Round
import Verif.Tikz.Spec
import Verif.Tikz.Two
import Verif.TimeInterp.Model
import Verif.TimeInterp.Props
import Verif.TimeSync.Lemmas
import Verif.TimeSync.Model
import Verif.TimeSync.Props
import Verif.TimeSync.Spec
import Verif.Timer.Lemmas
import Verif.Timer.Model
import Verif.Timer.Props
import Verif.Timer.Spec
import Verif.Topo.Many
import Verif.Topo.Measure
import Verif.Topo.Model
import Verif.Topo.Patch
import Verif.Topo.Props
import Verif.Topo.Setaux
import Verif.Topo.Single
import Verif.Topo.Spec
import Verif.TopoRead.Lemmas
import Verif.TopoRead.Model
import Verif.TopoRead.Props
import Verif.TopoRead.Spec
import Verif.TopoStart.Lemmas
import Verif.TopoStart.Model
import Verif.TopoStart.Props
import Verif.TopoStart.Run
import Verif.TopoStart.Spec
import Verif.Transfer.Fix
import Verif.Transfer.Lemmas
import Verif.Transfer.Model
import Verif.Transfer.Props
import Verif.Transfer.Spec
import Verif.Transform.Lemmas
import Verif.Transform.Model
import Verif.Transform.Props
import Verif.Transform.Spec
import Verif.ValueCount.Model
import Verif.ValueCount.Props
import Verif.ValueCount.Spec
import Verif.Vtk.Fields
import Verif.Vtk.File
import Verif.Vtk.Header
import Verif.Vtk.Lemmas
import Verif.Vtk.Model
import Verif.Vtk.Props
import Verif.Vtk.Read
import Verif.Vtk.Spec
import Verif.Vtk.Write
import Verif.Wave.Flux
import Verif.Wave.Limit
import Verif.Wave.LimitProps
import Verif.Wave.Loops
import Verif.Wave.Mem
import Verif.Wave.Model
import Verif.Wave.Pieces
import Verif.Wave.Props
import Verif.Wave.Slice
import Verif.Wave.Spec
import Verif.Wave.Step
import Verif.Wave.Theory
import Verif.Wave.Wrap
import Verif.Wave3.Corners
import Verif.Wave3.Flux
import Verif.Wave3.Loops
import Verif.Wave3.Model
import Verif.Wave3.Props
import Verif.Wave3.Slice
import Verif.Wave3.Spec
import Verif.Wave3.Stencil
import Verif.Wave3.Step
import Verif.Wave3.Sweep
import Verif.Wave3.Theory
import Verif.Wave3.Wrap
import Verif.Wave5.Flux
import Verif.Wave5.Model
import Verif.Wave5.Props
import Verif.Wave5.Slice
import Verif.Wave5.Step
