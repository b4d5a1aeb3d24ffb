import Verif.Model.Film
import Verif.Model.Sampler

/-!
# The per-tile loop of the integrator, /repo/src/integrator.rs:94-118

The radiance computation (camera ray, then `li`) is a parameter here: any program that draws
samples.  `Verif.Model.Integrator` defines the one of the code.
-/

namespace PT
variable {α : Type} [Scalar α]

/-- The test of /repo/src/integrator.rs:105. -/
def validRadiance (l : Spectrum α) : Bool :=
  !(l.any fun c => Scalar.isNaN c || Scalar.isInf c || (c <. lit 0))

/-- /repo/src/integrator.rs:105-109 (the message on stderr is not modelled). -/
def addIfValid (tile : FilmTile α) (pFilm : V2 α) (l : Spectrum α) : Option (FilmTile α) :=
  if validRadiance l then tile.addSample pFilm l else some tile

/-- One pass through the loop body, /repo/src/integrator.rs:101-109: camera sample and radiance. -/
def oneSample (radiance : V2 α → Draw α (Spectrum α)) (pixel : V2 Int) : Draw α (V2 α × Spectrum α) :=
  (getCameraSample pixel).bind fun pFilm => (radiance pFilm).bind fun l => .ret (pFilm, l)

/-- The loop of /repo/src/integrator.rs:100-114.  `fuel` bounds the number of iterations; C22 shows
that the bound used by `renderTile` is never reached. -/
def pixelLoop {σ : Type} (ops : SamplerOps α σ) (radiance : V2 α → Draw α (Spectrum α)) (pixel : V2 Int) :
    Nat → FilmTile α → σ → Option (FilmTile α × σ)
  | 0, _, _ => none
  | fuel + 1, tile, s => do
    let ((pFilm, l), s) ← (oneSample radiance pixel).run ops s
    let tile ← addIfValid tile pFilm l
    let (more, s) := ops.startNextSample s
    if more then pixelLoop ops radiance pixel fuel tile s else pure (tile, s)

/-- /repo/src/integrator.rs:95-115: the finished tile and the sampler afterwards. -/
def renderTile {σ : Type} (ops : SamplerOps α σ) (radiance : V2 α → Draw α (Spectrum α)) (film : Film α)
    (s : σ) (box : BBox2i) : Option (FilmTile α × σ) :=
  box.iter.toList.foldlM (fun (acc : FilmTile α × σ) pixel =>
    pixelLoop ops radiance pixel (2 ^ 32) acc.1 (ops.startPixel acc.2 pixel)) (film.getFilmTile box, s)

end PT
