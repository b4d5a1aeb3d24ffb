import Verif.Model.Scene
import Verif.Model.Sphere
import Verif.Model.Triangle
import Verif.Model.Camera
import Verif.Model.Film
import Verif.Model.Filter
import Verif.Model.Halton
import Verif.Model.KdTree
import Verif.Model.Texture
import Verif.Model.Material

/-!
# /repo/examples/helloworld.rs

The scene, film, sampler and camera of the example program.  `addr` gives the addresses of the five objects on the heap.
-/

namespace PT
namespace Hello
variable {α β : Type} [Scalar α] [Libm α] [HasInf α] [Scalar β] [Libm β] [Widen α β]

/-- /repo/examples/helloworld.rs:7 -/
def nThreads : Nat := 4
/-- /repo/examples/helloworld.rs:9 -/
def resolution : V2 Nat := ⟨1600, 1280⟩
/-- /repo/examples/helloworld.rs:11 -/
def samplesPerPixel : Nat := 500

/-- The materials, /repo/examples/helloworld.rs:39-40, 50-51, 57-58 -/
def matt (v : ℚ) : Material α := lambertianMaterial (constantTexture (Spectrum.of (lit v)))

/-- `Point3f::new` -/
def point (x y z : ℚ) : V3 α := ⟨lit x, lit y, lit z⟩

/-- /repo/examples/helloworld.rs:42 -/
def light1 : Triangle α := ⟨point (-1) (-1) 3, point 1 (-1) 3, point 1 1 3, none, true, matt 0⟩
/-- /repo/examples/helloworld.rs:45 -/
def light2 : Triangle α := ⟨point 1 1 3, point (-1) 1 3, point (-1) (-1) 3, none, true, matt 0⟩
/-- /repo/examples/helloworld.rs:52 -/
def ball : Sphere α := ⟨point 0 0 1, lit 1, matt 1⟩
/-- /repo/examples/helloworld.rs:60 -/
def floor1 : Triangle α := ⟨point (-10) (-10) 0, point 10 (-10) 0, point 10 10 0, none, false, matt (1 / 2)⟩
/-- /repo/examples/helloworld.rs:63 -/
def floor2 : Triangle α := ⟨point 10 10 0, point (-10) 10 0, point (-10) (-10) 0, none, false, matt (1 / 2)⟩

/-- /repo/examples/helloworld.rs:38-47 -/
def createLight (addr : Nat → Nat) (b : Builder α) : Builder α :=
  (b.addAreaLight (addr 0) ⟨Spectrum.of (lit (9 / 10)), light1.toShape⟩).addAreaLight (addr 1) ⟨Spectrum.of (lit (9 / 10)), light2.toShape⟩
/-- /repo/examples/helloworld.rs:49-54 -/
def createSphere (addr : Nat → Nat) (b : Builder α) : Builder α := b.addShape (addr 2) ball.toShape
/-- /repo/examples/helloworld.rs:56-65 -/
def createFloor (addr : Nat → Nat) (b : Builder α) : Builder α := (b.addShape (addr 3) floor1.toShape).addShape (addr 4) floor2.toShape

/-- /repo/examples/helloworld.rs:14-20; `none` is a panic. -/
def scene (addr : Nat → Nat) : Option (Scene α) :=
  (createFloor addr (createSphere addr (createLight addr Builder.new))).construct fun ss => (KdTree.new ss none).map KdTree.toContainer

/-- /repo/examples/helloworld.rs:22 -/
def filter : Filter α := (GaussianFilter.new (lit 2) (lit 2)).toFilter
/-- /repo/examples/helloworld.rs:22 -/
def film : Film α := Film.new ⟨resolution.x, resolution.y⟩ filter
/-- /repo/examples/helloworld.rs:23 -/
def sampler : HaltonSampler := HaltonSampler.new samplesPerPixel (film (α := α)).sampleBBox
/-- /repo/examples/helloworld.rs:25-32 -/
def camera : PerspectiveCamera α :=
  .new (Transform.lookAt (point (-10) (-30) 10) V3.zero (point 0 0 1)) (Transform.perspective (lit 30) (lit (1 / 100)) (lit 1000))
    ⟨lit (-5 / 4), lit (-1)⟩ ⟨lit (5 / 4), lit 1⟩ resolution
end Hello
end PT
