import Verif.VisRow.Props
import Verif.VisState.FileProps
import Verif.Contents.Props
import Verif.Contents.BrushProps
import Verif.Vis.Props
import Verif.Vis.RowsProps
import Verif.Parser.Props
import Verif.EntData.DictProps
import Verif.EntData.Props
import Verif.Settings.Props
import Verif.Settings.MoreProps
import Verif.Cmdlib.Props
import Verif.Stream.Props
import Verif.BspFile.ConvertProps
import Verif.BspFile.FileProps
import Verif.BspFile.BspxProps
import Verif.Prt.LoadProps
import Verif.Geom.ClipProps
import Verif.Geom.StorageProps
import Verif.Geom.AabbProps
import Verif.Tree.WalkProps
import Verif.Tree.DrawProps
import Verif.Flood.PortalProps
import Verif.Flood.OutsideProps
import Verif.Flood.SidesProps
import Verif.Flood.TrailProps
import Verif.Flood.AreaProps
import Verif.Flood.PathProps
import Verif.Faces.EdgeProps
import Verif.Faces.LimitProps
import Verif.Faces.FragProps
import Verif.Faces.MergeConvex
import Verif.Emit.FacesProps
import Verif.Emit.VerticesProps
import Verif.Emit.TexExportProps
import Verif.BrushBsp.TermProps
import Verif.BrushBsp.WindingProps
import Verif.BrushBsp.LeafProps
import Verif.BrushBsp.ExampleProps
import Verif.BrushBsp.Findings
import Verif.BrushBsp.SelectProps
import Verif.BrushBsp.SelectExample
import Verif.BrushBsp.CheckProps
import Verif.Vis.Clip
import Verif.Vis.SightSpec
import Verif.Vis.SightProps
import Verif.Vis.SightExample
import Verif.BrushBsp.ChopProps
import Verif.BrushBsp.ChopExample
import Verif.Light.Model
import Verif.Light.Spec
import Verif.Light.Lemmas
import Verif.Light.SaveLemmas
import Verif.Light.Props
import Verif.Light.Lumps
import Verif.Light.StyleProps
import Verif.Light.LumpProps
import Verif.Light.Example
import Verif.Light.Image
import Verif.Light.ImageLemmas
import Verif.Light.FloodLemmas
import Verif.Light.ImageProps
import Verif.Light.ScaleProps
import Verif.Light.LitOnly
import Verif.Light.LitOnlyProps
import Verif.Light.ImageExample
import Verif.LightGrid.Model
import Verif.LightGrid.Spec
import Verif.LightGrid.Lemmas
import Verif.LightGrid.TreeLemmas
import Verif.LightGrid.ByteLemmas
import Verif.LightGrid.Props
import Verif.LightGrid.GridProps
import Verif.LightGrid.SampleProps
import Verif.LightGrid.Example
import Verif.Archive.Model
import Verif.Archive.Spec
import Verif.Archive.Lemmas
import Verif.Archive.Props
import Verif.Archive.SearchSpec
import Verif.Archive.SearchLemmas
import Verif.Archive.SearchProps
import Verif.Archive.LoadProps
import Verif.Archive.AgainProps
import Verif.Archive.WadModel
import Verif.Archive.WadProps
import Verif.Styles.Model
import Verif.Styles.Spec
import Verif.Styles.Lemmas
import Verif.Styles.PassLemmas
import Verif.Styles.Props
import Verif.Styles.ThreadProps
import Verif.Styles.EntityProps
import Verif.TexFlags.Model
import Verif.TexFlags.Spec
import Verif.TexFlags.Lemmas
import Verif.TexFlags.FileLemmas
import Verif.TexFlags.Props
import Verif.TexFlags.EntModel
import Verif.TexFlags.EntProps
import Verif.TexFlags.EntProps2
import Verif.TexFlags.EntProps3
import Verif.TexFlags.EntProps4
import Verif.Hulls.Model
import Verif.Hulls.Spec
import Verif.Hulls.Lemmas
import Verif.Hulls.Bevels
import Verif.Hulls.Cone
import Verif.Hulls.Tight
import Verif.Hulls.TightProps
import Verif.Hulls.Props
import Verif.Hulls.Example
import Verif.World.Model
import Verif.World.Spec
import Verif.World.Vertex
import Verif.World.Lemmas
import Verif.World.Race
import Verif.World.Props
import Verif.Place.Model
import Verif.Place.Spec
import Verif.Place.Lemmas
import Verif.Place.Props
import Verif.TexDef.Model
import Verif.TexDef.Spec
import Verif.TexDef.Lemmas
import Verif.TexDef.Frac
import Verif.TexDef.Real
import Verif.TexDef.Props
import Verif.MapText.Model
import Verif.MapText.Spec
import Verif.MapText.Lemmas
import Verif.MapText.Safe
import Verif.MapText.Props
import Verif.Textures.Model
import Verif.Textures.Spec
import Verif.Textures.Lemmas
import Verif.Textures.LoadProps
import Verif.Textures.SampleProps
import Verif.Textures.AverageProps
import Verif.Illum.Model
import Verif.Illum.Spec
import Verif.Illum.Lemmas
import Verif.Illum.CullProps
import Verif.Illum.ValueProps
import Verif.Illum.SpotProps
import Verif.Illum.DirtProps
import Verif.Illum.Maps
import Verif.Illum.MapsSpec
import Verif.Illum.MapsLemmas
import Verif.Illum.MapsProps
import Verif.Illum.MinProps
import Verif.Illum.Surface
import Verif.Illum.SurfaceProps
import Verif.Extents.Model
import Verif.Extents.Spec
import Verif.Extents.Lemmas
import Verif.Extents.ExtentProps
import Verif.Extents.DecoupledProps
import Verif.Extents.GridProps
import Verif.Atlas.Model
import Verif.Atlas.Spec
import Verif.Atlas.Lemmas
import Verif.Atlas.AtlasProps
import Verif.Decompile.Model
import Verif.Decompile.Spec
import Verif.Decompile.LeafProps
import Verif.Decompile.RedundantLemmas
import Verif.Decompile.RedundantProps
import Verif.Decompile.SplitProps
import Verif.Decompile.WriteProps
import Verif.Surfaces.Model
import Verif.Surfaces.Spec
import Verif.Surfaces.ConvexLemmas
import Verif.Surfaces.SplitLemmas
import Verif.Surfaces.ChopLemmas
import Verif.Surfaces.SubdivProps
import Verif.Surfaces.MarkProps
import Verif.Surfaces.MakeSpec
import Verif.Surfaces.MakeProps
import Verif.Phong.Model
import Verif.Phong.Spec
import Verif.Phong.SmoothLemmas
import Verif.Phong.SpecLemmas
import Verif.Phong.SmoothProps
import Verif.Phong.ModelProps
import Verif.Phong.NormalLemmas
import Verif.Phong.NormalProps
import Verif.Phong.EdgeProps
import Verif.Samples.Model
import Verif.Samples.Spec
import Verif.Samples.InterpLemmas
import Verif.Samples.FanLemmas
import Verif.Samples.FaceLemmas
import Verif.Samples.InterpProps
import Verif.Samples.ClosestProps
import Verif.Samples.PlaceProps
import Verif.Samples.EdgeProps
import Verif.Suns.Model
import Verif.Suns.Spec
import Verif.Suns.SunLemmas
import Verif.Suns.SunProps
import Verif.Suns.DomeProps
import Verif.Suns.LampProps
import Verif.Suns.DrawProps
import Verif.PortalSides.Model
import Verif.PortalSides.Spec
import Verif.PortalSides.Lemmas
import Verif.PortalSides.Props
import Verif.PortalSides.Cases
import Verif.SurfLights.Model
import Verif.SurfLights.Spec
import Verif.SurfLights.AreaLemmas
import Verif.SurfLights.CutLemmas
import Verif.SurfLights.SubdivideProps
import Verif.SurfLights.LightProps
import Verif.Radiosity.Dice
import Verif.Radiosity.DiceProps
import Verif.Radiosity.Model
import Verif.Radiosity.Spec
import Verif.Radiosity.EmitLemmas
import Verif.Radiosity.SurfaceProps
import Verif.Radiosity.BounceProps
import Verif.Radiosity.PointProps
import Verif.Radiosity.Race
import Verif.Radiosity.RaceProps
import Verif.MapUtil.Model
import Verif.MapUtil.Spec
import Verif.MapUtil.Lemmas
import Verif.MapUtil.Props
import Verif.MapUtil.Convert
import Verif.BspUtil.Check
import Verif.BspUtil.CheckSpec
import Verif.BspUtil.CheckProps
import Verif.BspUtil.Scale
import Verif.BspUtil.ScaleSpec
import Verif.BspUtil.ScaleLemmas
import Verif.BspUtil.ScaleProps
import Verif.BspUtil.ScaleMore
import Verif.BspUtil.Replace
import Verif.BspUtil.ReplaceProps
import Verif.BspUtil.Commands
import Verif.BspUtil.CommandsProps
import Verif.Miptex.Model
import Verif.Miptex.Spec
import Verif.Miptex.Lemmas
import Verif.Miptex.Props
import Verif.Miptex.Chain
import Verif.Miptex.ChainSpec
import Verif.Miptex.ChainLemmas
import Verif.Miptex.ChainProps
import Verif.Archive.TexPaths
import Verif.Archive.TexPathsSpec
import Verif.Archive.TexPathsProps
import Verif.Tree.FindFace
import Verif.Tree.FindFaceSpec
import Verif.Tree.FindFaceProps
import Verif.Shadow.Model
import Verif.Shadow.Spec
import Verif.Shadow.Lemmas
import Verif.Shadow.Props
import Verif.Mottle.Model
import Verif.Mottle.Spec
import Verif.Mottle.Props
import Verif.Dirt.Model
import Verif.Dirt.Spec
import Verif.Dirt.Lemmas
import Verif.Dirt.Props
import Verif.SunRay.Model
import Verif.SunRay.Spec
import Verif.SunRay.Lemmas
import Verif.SunRay.Props
import Verif.Passes.Model
import Verif.Passes.Spec
import Verif.Passes.Lemmas
import Verif.Passes.Props
import Verif.FaceKeys.Model
import Verif.FaceKeys.Spec
import Verif.FaceKeys.Props
import Verif.OnlyEnts.Model
import Verif.OnlyEnts.Spec
import Verif.OnlyEnts.Lemmas
import Verif.OnlyEnts.Props
import Verif.BrushList.Model
import Verif.BrushList.Spec
import Verif.BrushList.Props
import Verif.Ambient.Model
import Verif.Ambient.Spec
import Verif.Ambient.Lemmas
import Verif.Ambient.Props
import Verif.LeafBrush.Model
import Verif.LeafBrush.Spec
import Verif.LeafBrush.Lemmas
import Verif.LeafBrush.Props
import Verif.Target.Model
import Verif.Target.Spec
import Verif.Target.Props
import Verif.VisCull.Model
import Verif.VisCull.Spec
import Verif.VisCull.Lemmas
import Verif.VisCull.Props
import Verif.TexValid.Model
import Verif.TexValid.Spec
import Verif.TexValid.Lemmas
import Verif.TexValid.Props
import Verif.Region.Model
import Verif.Region.Spec
import Verif.Region.Lemmas
import Verif.Region.Props
import Verif.LoadEnt.Model
import Verif.LoadEnt.Spec
import Verif.LoadEnt.Lemmas
import Verif.LoadEnt.Props
import Verif.TreeBounds.Model
import Verif.TreeBounds.Spec
import Verif.TreeBounds.Lemmas
import Verif.TreeBounds.Props
import Verif.DivBounds.Model
import Verif.DivBounds.Spec
import Verif.DivBounds.Lemmas
import Verif.DivBounds.Props
import Verif.Flood.Exits
import Verif.Flood.ExitSpec
import Verif.Flood.ExitLemmas
import Verif.Flood.ExitProps
import Verif.Projector.Model
import Verif.Projector.Spec
import Verif.Projector.Lemmas
import Verif.Projector.Props
import Verif.SunRay.GridSurf
import Verif.SunRay.GridSurfProps
import Verif.Miptex.Data
import Verif.Miptex.DataSpec
import Verif.Miptex.DataLemmas
import Verif.Miptex.DataProps
import Verif.VisCull.Rays
import Verif.VisCull.RaysSpec
import Verif.VisCull.RaysLemmas
import Verif.VisCull.RaysProps
import Verif.SurfLights.RadFile
import Verif.SurfLights.RadSpec
import Verif.SurfLights.RadLemmas
import Verif.SurfLights.RadProps
import Verif.NormalsLump.Model
import Verif.NormalsLump.Spec
import Verif.NormalsLump.Lemmas
import Verif.NormalsLump.Props
import Verif.Styles.Arghrad
import Verif.Styles.ArghradSpec
import Verif.Styles.ArghradLemmas
import Verif.Styles.ArghradProps
import Verif.WalJson.Model
import Verif.WalJson.Spec
import Verif.WalJson.Lemmas
import Verif.WalJson.Props
import Verif.NodePortal.Model
import Verif.NodePortal.Spec
import Verif.NodePortal.Lemmas
import Verif.NodePortal.Props
import Verif.DebugExpand.Model
import Verif.DebugExpand.Spec
import Verif.DebugExpand.Lemmas
import Verif.DebugExpand.Props
import Verif.TexRemap.Model
import Verif.TexRemap.Spec
import Verif.TexRemap.Lemmas
import Verif.TexRemap.Props
import Verif.Alias.Model
import Verif.Alias.Spec
import Verif.Alias.Lemmas
import Verif.Alias.Props
