import Verif.Props.Iter
import Verif.Props.Film
import Verif.Props.FilmF32
import Verif.Props.Output
import Verif.Props.Pixel
import Verif.Props.Halton
import Verif.Props.HaltonIndex
import Verif.Props.Sampler
import Verif.Props.Render
import Verif.Props.RenderImage
import Verif.Props.Transform
import Verif.Props.Camera
import Verif.Props.Util
import Verif.Props.Scattering
import Verif.Props.Glass
import Verif.Props.Bsdf
import Verif.Props.BsdfMix
import Verif.Props.Select
import Verif.Props.Microfacet
import Verif.Props.Interaction
import Verif.Props.BBox
import Verif.Props.Container
import Verif.Props.KdTree
import Verif.Props.KdSah
import Verif.Props.KdClosest
import Verif.Props.KdExamples
import Verif.Props.Triangle
import Verif.Props.Sphere
import Verif.Props.Frame
import Verif.Props.ShapeContract
import Verif.Props.SceneClosest
import Verif.Props.PathLength
import Verif.Props.Lights
import Verif.Props.Radiance
import Verif.Props.RadianceLib
import Verif.Props.NeverPanics
import Verif.Props.NeverPanicsLib
import Verif.Props.HaltonStream
import Verif.Props.Transport
import Verif.Props.TriangleWorld
import Verif.Props.KdCost
import Verif.Props.BoxGeometry
import Verif.Props.TransformMeaning
import Verif.Props.SampleDist
import Verif.Props.SampleTriangle
import Verif.Props.FresnelValue
import Verif.Props.SampleMicrofacet
import Verif.Props.Materials
import Verif.Props.MaterialsSpecular
import Verif.Props.MaterialsRough
import Verif.Props.ErrorBounds
import Verif.Props.ErrorBoundsSphere
import Verif.Props.MirrorTwice
import Verif.Props.Tangents
import Verif.Props.LostY
import Verif.Props.SpherePole
import Verif.Props.HaltonSpread
import Verif.Props.Grey
import Verif.Props.SameGeometry
import Verif.Props.Tint
import Verif.Props.Watertight
import Verif.Props.Writer
import Verif.Props.BoxF32
import Verif.Props.Wall
import Verif.Props.KdF32
import Verif.Props.Schedule
import Verif.Props.ScheduleRun
import Verif.Props.PpmUnique
import Verif.Props.ScheduleDemo
import Verif.Props.NoPanicF32
import Verif.Props.NoPanicCamera
import Verif.Props.Hello
import Verif.Props.RandomRun
import Verif.Props.SolidAngle
import Verif.Props.WrongSide
import Verif.Props.WrongSideInside
import Verif.Props.Superposition
import Verif.Props.WholeImage
import Verif.Props.Expected
import Verif.Props.MoreExamples
import Verif.Props.MoreExamples2
import Verif.Props.SameImage
import Verif.Props.SameImageDemo
import Verif.Props.MoreSamples
import Verif.Props.Wrap
import Verif.Props.NoSelfHit
import Verif.Props.NoFireflies
import Verif.Props.Picture
import Verif.Props.Kinds
import Verif.Props.Noise
import Verif.Props.Dark
import Verif.Props.Lambert
import Verif.Props.Unseen
import Verif.Props.UnseenDemo
import Verif.Props.GlassView
import Verif.Props.GlassViewDemo
import Verif.Props.Framing
import Verif.Props.LightChoice
import Verif.Props.ChoiceF32
import Verif.Props.ChoiceCode
import Verif.Props.ManyLamps
import Verif.Props.ConvexMatt
import Verif.Props.ConvexMattPixel
import Verif.Props.WeightsF32
import Verif.Props.WeightsCounts
import Verif.Props.HaltonF32
import Verif.Props.RadianceF32
import Verif.Props.MetalF32
import Verif.Props.FresnelF32
import Verif.Props.DiffuseF32
import Verif.Props.TriangleSampleF32
import Verif.Props.OutputF32
import Verif.Props.ScheduleByte
import Verif.Props.ImageF32
import Verif.Props.FilterF32
import Verif.Props.ImageAll32
import Verif.Props.FilmSum32
import Verif.Props.NormalizeF32
import Verif.Props.ReflectF32
import Verif.Props.RefractF32
import Verif.Props.GlassF32
import Verif.Props.MirrorF32
import Verif.Props.TransformF32
import Verif.Props.FrameF32
import Verif.Props.FrameTriangleF32
import Verif.Props.FrameSphereF32
import Verif.Props.FrameSmoothF32
import Verif.Props.SystemF32
import Verif.Props.FrameParallelF32
