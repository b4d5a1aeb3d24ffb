import Verif.Model.Transform

/-! # /repo/src/camera.rs -/

namespace PT
variable {α : Type} [Scalar α] [Libm α]

/-- /repo/src/camera.rs:16-24 -/
structure PerspectiveCamera (α : Type) where
  cameraToWorld : Transform α
  rasterToCamera : Transform α
  cameraToScreen : Transform α
  screenToRaster : Transform α
  rasterToScreen : Transform α

namespace PerspectiveCamera
/-- /repo/src/camera.rs:27-55; the window is given by its corners (`BBox2f`), the resolution is `u32`. -/
def new (cameraToWorld cameraToScreen : Transform α) (wmin wmax : V2 α) (res : V2 Nat) : PerspectiveCamera α :=
  let screenToRaster :=
    ((Transform.scale (ofInt res.x) (ofInt res.y) (lit 1)).mul
      (Transform.scale (lit 1 /. (wmax.x -. wmin.x)) (lit 1 /. (wmin.y -. wmax.y)) (lit 1))).mul
      (Transform.translate (⊖wmin.x) (⊖wmax.y) (lit 0))
  let rasterToScreen := screenToRaster.inverse
  let rasterToCamera := cameraToScreen.inverse.mul rasterToScreen
  ⟨cameraToWorld, rasterToCamera, cameraToScreen, screenToRaster, rasterToScreen⟩

/-- /repo/src/camera.rs:59-69 -/
def generateRay [HasInf α] (c : PerspectiveCamera α) (pFilm : V2 α) : Ray α :=
  let pCamera := c.rasterToCamera.apply pointTransform ⟨pFilm.x, pFilm.y, lit 0⟩
  let ray : Ray α := { Ray.default with direction := pCamera.normalize }
  c.cameraToWorld.apply rayTransform ray
end PerspectiveCamera
end PT
