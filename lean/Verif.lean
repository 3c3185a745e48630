import Verif.Pool.TilesProps
import Verif.Pool.SchedProps
import Verif.Pool.LockProps
import Verif.Image.FilterProps
import Verif.Image.SplatProps
import Verif.Image.Parallel
import Verif.Sampling.DiscretePdfProps
import Verif.Math.VecProps
import Verif.Math.ComplexProps
import Verif.Sampling.LightSelectProps
import Verif.Math.BBoxProps
import Verif.Math.MatrixProps
import Verif.Api.TransformCmdProps
import Verif.Math.FrameProps
import Verif.Sampling.WarpProps
import Verif.Camera.PerspectiveProps
import Verif.Api.RegistryProps
import Verif.Api.CommuteProps
import Verif.Api.CommuteAll
import Verif.Api.FlushProps
import Verif.Api.Cleanup
import Verif.Sdf.ShapeProps
import Verif.Sdf.MarchProps
import Verif.Sdf.QueryProps
import Verif.Shapes.MeshProps
import Verif.Shapes.GridProps
import Verif.Shapes.GridTerrain
import Verif.Photons.ArrayProps
import Verif.Photons.ScatterProps
import Verif.Photons.EmitProps
import Verif.Photons.PowerProps
import Verif.Photons.ViewProps
import Verif.Scene.VisibilityProps
import Verif.Scene.SegmentProps
import Verif.Integrators.RouletteProps
import Verif.Integrators.TimerProps
import Verif.Bsdf.SpecularProps
import Verif.Bsdf.LobeProps
import Verif.Media.TransProps
import Verif.Media.SampleProps
import Verif.Media.Unbiased
import Verif.Media.PhaseProps
import Verif.Sampling.SamplerProps
import Verif.Tools.TesterProps
import Verif.Tools.RecordProps
import Verif.Textures.Props
import Verif.Parser.TraceProps
import Verif.Shapes.ObjProps
import Verif.Media.TransFuncProps
import Verif.Media.WiringProps
import Verif.Lights.EmitterProps
import Verif.Lights.NeeProps
import Verif.Integrators.VolProps
import Verif.Integrators.VolOnceProps
import Verif.Integrators.VolAgreeProps
import Verif.Integrators.VolTransProps
import Verif.Shaders.SphereProps
import Verif.Shaders.WireframeProps
import Verif.Scene.HitsProps
import Verif.Photons.RouletteProps
import Verif.Api.AreaLightsProps
import Verif.Sampling.WarpMeanProps
import Verif.Bsdf.BounceProps
import Verif.Media.PhaseLawProps
import Verif.Sampling.Stream
import Verif.Integrators.WalkProps
import Verif.Integrators.Carried
import Verif.Integrators.RoomProps
import Verif.Integrators.Lit
import Verif.Integrators.LitSpec
import Verif.Integrators.LitLemmas
import Verif.Integrators.LitProps
import Verif.Sampling.Repeat
import Verif.Image.Shoot
import Verif.Image.ShootSpec
import Verif.Image.ShootLemmas
import Verif.Image.FilmLemmas
import Verif.Image.ShootProps
import Verif.Image.ShootFilters
import Verif.Integrators.Left
import Verif.Integrators.LeftLemmas
import Verif.Integrators.Picture
import Verif.Image.Unbiased
import Verif.Integrators.Sky
import Verif.Integrators.SkyProps
import Verif.Integrators.Whitted
import Verif.Integrators.WhittedSpec
import Verif.Integrators.WhittedLemmas
import Verif.Integrators.WhittedProps
import Verif.Integrators.Mist
import Verif.Integrators.MistSpec
import Verif.Integrators.MistLemmas
import Verif.Integrators.MistMean
import Verif.Integrators.MistProps
import Verif.Integrators.MistLight
import Verif.Integrators.Fog
import Verif.Integrators.FogSpec
import Verif.Integrators.FogLemmas
import Verif.Integrators.FogProps
import Verif.Sampling.Limit
import Verif.Integrators.MistLeft
import Verif.Integrators.MistLeftLemmas
import Verif.Integrators.MistPicture
import Verif.Integrators.WhittedLeft
import Verif.Integrators.WhittedPicture
import Verif.Math.BBoxQueries
import Verif.Sampling.PlaneLaws
import Verif.Camera.LensSpec
import Verif.Camera.LensProps
import Verif.Camera.LensScenes
import Verif.Camera.LensRange
import Verif.Tools.Site
import Verif.Tools.SiteLemmas
import Verif.Tools.SiteProps
import Verif.Tools.Graphs
import Verif.Tools.GraphsProps
import Verif.Scene.BoundsProps
import Verif.Camera.TargetProps
import Verif.Integrators.DebugProps
import Verif.Integrators.SandboxProps
import Verif.Photons.EndsProps
import Verif.Scene.ShadowProps
import Verif.Sdf.NormalProps
import Verif.Bsdf.EnergyProps
import Verif.Scene.ReverseProps
import Verif.Image.SpoilProps
import Verif.Bsdf.PowersProps
import Verif.Image.RoundingProps
import Verif.Photons.OctreeProps
import Verif.Parser.ExecRenderProps
import Verif.Tools.TimingProps
import Verif.Integrators.LinearProps
import Verif.Photons.Relight
import Verif.Media.VdbProps
import Verif.Sdf.SelfShadow
import Verif.Sdf.Room
import Verif.Moved.Spec
import Verif.Moved.Lemmas
import Verif.Moved.SceneLemmas
import Verif.Moved.Props
import Verif.Scene.UnmetProps
import Verif.Sdf.UnmetProps
import Verif.Scaled.Spec
import Verif.Scaled.Lemmas
import Verif.Scaled.Props
import Verif.Camera.SizeProps
import Verif.Camera.SizeGauss
import Verif.Turned.Props
import Verif.Integrators.BouncesProps
import Verif.Lights.Nusselt
import Verif.Integrators.FacetScene
import Verif.Integrators.FurnaceProps
import Verif.Sampling.Partial
import Verif.Sdf.Measurable
import Verif.Sdf.RoomSpec
import Verif.Sdf.RoomLemmas
import Verif.Sdf.PictureProps
import Verif.Sdf.LimitedProps
import Verif.Parser.Drawn
import Verif.Parser.DrawnSpec
import Verif.Parser.DrawnLemmas
import Verif.Parser.DrawnProps
import Verif.Parser.DrawnPicture
import Verif.Parser.DrawnSeen
import Verif.Parser.DrawnScenes
import Verif.Sdf.Views
import Verif.Sdf.ViewsProps
import Verif.Parser.DrawnViews
import Verif.Integrators.SeenLemmas
import Verif.Sdf.WhittedPicture
import Verif.Parser.DrawnWhitted
import Verif.Sdf.Clear
import Verif.Math.Box2
import Verif.Math.Box2Props
import Verif.Math.Wave
import Verif.Math.WaveProps
import Verif.Sdf.EdgeViews
import Verif.Parser.DrawnEdges
import Verif.Sdf.Order
import Verif.Parser.DrawnOrder
import Verif.Sdf.LampOrder
import Verif.Parser.DrawnLamps
import Verif.Sdf.ViewOrder
import Verif.Parser.DrawnViewOrder
import Verif.Sdf.Copies
import Verif.Parser.DrawnCopies
import Verif.Sdf.LampSum
import Verif.Parser.DrawnLampSum
import Verif.Parser.DrawnLampPictures
import Verif.Audit
import Verif.Image.Stops
