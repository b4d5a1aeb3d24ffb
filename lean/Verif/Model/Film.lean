import Verif.Model.BBox2
import Verif.Model.Filter
import Verif.Model.Spectrum

/-!
# /repo/src/film.rs

A panic (index out of bounds) is `none`.  The mutex around the pixel buffer is the subject of
`Verif.Model.Render`; here the operations are the critical sections.
-/

namespace PT
variable {α : Type} [Scalar α]

/-- /repo/src/film.rs:11 -/
def filterTableWidth : Nat := 16
/-- /repo/src/film.rs:14 -/
def tileSize : Int := 16
/-- /repo/src/film.rs:16 -/
def halfPixel : V2 α := ⟨lit (1 / 2), lit (1 / 2)⟩

/-- /repo/src/film.rs:202-206 -/
@[ext] structure Pixel (α : Type) where
  color : Spectrum α
  weight : α
  deriving DecidableEq

/-- `Pixel::default()`, /repo/src/film.rs:202 -/
def Pixel.zero : Pixel α := ⟨Spectrum.zero, lit 0⟩
/-- /repo/src/film.rs:209-212 -/
def Pixel.addSample (p : Pixel α) (sample : Spectrum α) (w : α) : Pixel α :=
  ⟨p.color.add (sample.smul w), p.weight +. w⟩
/-- /repo/src/film.rs:214-217 -/
def Pixel.merge (p q : Pixel α) : Pixel α := ⟨p.color.add q.color, p.weight +. q.weight⟩

/-- /repo/src/film.rs:18-23; the table is a list of rows. -/
structure Film (α : Type) where
  resolution : V2 Int
  filterRadius : α
  filterTable : List (List α)
  pixels : List (Pixel α)

/-- /repo/src/film.rs:109-114 -/
structure FilmTile (α : Type) where
  bbox : BBox2i
  filterRadius : α
  filterTable : List (List α)
  pixels : List (Pixel α)

/-- The filter table of `Film::new`, /repo/src/film.rs:29-39. -/
def mkFilterTable (f : Filter α) : List (List α) :=
  (List.range filterTableWidth).map fun (y : Nat) => (List.range filterTableWidth).map fun (x : Nat) =>
    f.evaluate
      ⟨(ofInt x +. lit (1 / 2)) *. f.radius /. ofInt filterTableWidth,
       (ofInt y +. lit (1 / 2)) *. f.radius /. ofInt filterTableWidth⟩

/-- /repo/src/film.rs:26-51 (resolution given as `i32`; the product wraps as in a release build). -/
def Film.new (resolution : V2 Int) (f : Filter α) : Film α :=
  { resolution, filterRadius := f.radius, filterTable := mkFilterTable f
    pixels := List.replicate (asUsize (wrapI32 (resolution.x * resolution.y))) Pixel.zero }

/-- /repo/src/film.rs:53-58 -/
def Film.sampleBBox (film : Film α) : BBox2i :=
  BBox2i.new
    (((V2.add ⟨lit 0, lit 0⟩ halfPixel).ssub film.filterRadius).floor).toI
    ((((V2.ofI film.resolution).sub halfPixel).sadd film.filterRadius).ceil).toI

/-- /repo/src/film.rs:117-128 -/
def FilmTile.new (bbox : BBox2i) (filterRadius : α) (filterTable : List (List α)) : FilmTile α :=
  { bbox, filterRadius, filterTable, pixels := List.replicate (asUsize bbox.area) Pixel.zero }

/-- /repo/src/film.rs:64-72 -/
def Film.getFilmTile (film : Film α) (bbox : BBox2i) : FilmTile α :=
  let min := (((V2.ofI bbox.min).sub halfPixel).ssub film.filterRadius).ceil.toI
  let max := (((V2.ofI bbox.max).add halfPixel).sadd film.filterRadius).floor.toI
  let min := min.imax ⟨0, 0⟩
  let max := max.imin film.resolution
  FilmTile.new (BBox2i.new min max) film.filterRadius film.filterTable

/-- /repo/src/film.rs:74-77; wrapping after both `i32` operations is wrapping once. -/
def Film.pixelOffset (film : Film α) (p : V2 Int) : Nat := asUsize (wrapI32 (film.resolution.x * p.y + p.x))

/-- /repo/src/film.rs:130-135; wrapping after every `i32` operation is wrapping once. -/
def FilmTile.pixelOffset (t : FilmTile α) (x y : Int) : Nat :=
  let x := x - t.bbox.min.x
  let y := y - t.bbox.min.y
  let width := t.bbox.max.x - t.bbox.min.x
  asUsize (wrapI32 (width * y + x))

/-- `v[i] = f(v[i])`, panicking when out of bounds. -/
def modifyAt {β : Type} (l : List β) (i : Nat) (f : β → β) : Option (List β) :=
  if i < l.length then some (l.modify i f) else none

/-- One iteration of the merge loop, /repo/src/film.rs:82. -/
def Film.mergePixel (film : Film α) (tile : FilmTile α) (p : V2 Int) : Option (Film α) := do
  let src ← tile.pixels[tile.pixelOffset p.x p.y]?
  let pixels ← modifyAt film.pixels (film.pixelOffset p) (fun d => d.merge src)
  pure { film with pixels }

/-- /repo/src/film.rs:79-84 -/
def Film.mergeFilmTile (film : Film α) (tile : FilmTile α) : Option (Film α) :=
  tile.bbox.iter.toList.foldlM (fun film p => film.mergePixel tile p) film

/-- The Rust range `a..b` on `i32`. -/
def intRange (a b : Int) : List Int := (List.range (b - a).toNat).map fun (i : Nat) => a + (i : Int)

/-- The index list built for one axis, /repo/src/film.rs:148-151. -/
def filterIndices (radius pFilm : α) (min max : Int) : List Nat :=
  (intRange min max).map fun p =>
    let fi := toUsize (Scalar.floor (Scalar.abs
      ((ofInt p -. pFilm) /. radius *. ofInt filterTableWidth)))
    Nat.min fi (filterTableWidth - 1)

/-- /repo/src/film.rs:137-162 -/
def FilmTile.addSample (t : FilmTile α) (pFilm : V2 α) (sample : Spectrum α) : Option (FilmTile α) := do
  let pFilm := pFilm.sub halfPixel
  let min := (pFilm.ssub t.filterRadius).ceil.toI
  let max := (pFilm.sadd t.filterRadius).floor.toI
  let max : V2 Int := ⟨wrapI32 (max.x + 1), wrapI32 (max.y + 1)⟩
  let min := min.imax t.bbox.min
  let max := max.imin t.bbox.max
  let indices0 := filterIndices t.filterRadius pFilm.x min.x max.x
  let indices1 := filterIndices t.filterRadius pFilm.y min.y max.y
  let pixels ← (intRange min.y max.y).foldlM (fun px y =>
    (intRange min.x max.x).foldlM (fun px x => do
      let i1 ← indices1[asUsize (y - min.y)]?
      let i0 ← indices0[asUsize (x - min.x)]?
      let row ← t.filterTable[i1]?
      let weight ← row[i0]?
      modifyAt px (t.pixelOffset x y) (fun p => p.addSample sample weight)) px) t.pixels
  pure { t with pixels }

/-- /repo/src/film.rs:165-169 -/
structure FilmTileIter where
  bbox : BBox2i
  nTiles : V2 Int
  i : V2 Int
  deriving DecidableEq

/-- /repo/src/film.rs:172-179; `/` on `i32` truncates. -/
def FilmTileIter.new (sampleBBox : BBox2i) : FilmTileIter :=
  let d := sampleBBox.diagonal
  { bbox := sampleBBox
    nTiles := ⟨(d.x + tileSize - 1).tdiv tileSize, (d.y + tileSize - 1).tdiv tileSize⟩
    i := ⟨0, 0⟩ }

/-- /repo/src/film.rs:184-199 -/
def FilmTileIter.next (it : FilmTileIter) : Option BBox2i × FilmTileIter :=
  if it.nTiles.y ≤ it.i.y then (none, it)
  else if it.nTiles.x ≤ it.i.x then
    FilmTileIter.next { it with i := ⟨0, it.i.y + 1⟩ }
  else
    let min : V2 Int := ⟨it.bbox.min.x + it.i.x * tileSize, it.bbox.min.y + it.i.y * tileSize⟩
    let max : V2 Int := (⟨min.x + tileSize, min.y + tileSize⟩ : V2 Int).imin it.bbox.max
    (some (BBox2i.new min max), { it with i := ⟨it.i.x + 1, it.i.y⟩ })
termination_by (it.nTiles.y - it.i.y).toNat

/-- Every call that delivers a tile moves the iterator forward. -/
theorem FilmTileIter.next_some {it it' : FilmTileIter} {t : BBox2i} (h : it.next = (some t, it')) :
    it'.nTiles = it.nTiles ∧ it'.bbox = it.bbox ∧ it'.i.x ≤ it.nTiles.x ∧ it'.i.y < it.nTiles.y ∧
      (it'.i.y = it.i.y ∧ it'.i.x = it.i.x + 1 ∨ it.i.y < it'.i.y ∧ it'.i.x = 1) := by
  fun_induction FilmTileIter.next it with
  | case1 it h1 => simp at h
  | case2 it h1 h2 ih =>
    have := ih h
    simp only at this
    obtain ⟨a, b, c, d, e⟩ := this
    refine ⟨a, b, c, d, ?_⟩
    omega
  | case3 it h1 h2 =>
    simp only [Prod.mk.injEq, Option.some.injEq] at h
    obtain ⟨rfl, rfl⟩ := h
    simp; omega

/-- All tiles still to be delivered, in order: what repeated calls of `next` at
/repo/src/integrator.rs:60-63 return before the first `None`. -/
def FilmTileIter.toList (it : FilmTileIter) : List BBox2i :=
  match h : it.next with
  | (none, _) => []
  | (some t, it') => t :: it'.toList
termination_by ((it.nTiles.y - it.i.y).toNat, (it.nTiles.x - it.i.x).toNat)
decreasing_by
  obtain ⟨a, _, c, d, g⟩ := FilmTileIter.next_some h
  rw [a]
  rcases g with ⟨g1, g2⟩ | ⟨g1, _⟩
  · rw [g1]; apply Prod.Lex.right; omega
  · apply Prod.Lex.left; omega

/-- /repo/src/film.rs:60-62 -/
def Film.iter (film : Film α) : FilmTileIter := FilmTileIter.new film.sampleBBox

/-- /repo/src/film.rs:220-226 -/
def gammaCorrect [Libm α] (v : α) : α :=
  if v <=. lit (31308 / 10000000) then lit (1292 / 100) *. v
  else lit (1055 / 1000) *. Libm.powf v (lit 1 /. lit (24 / 10)) -. lit (55 / 1000)

/-- The channel value computed at /repo/src/film.rs:96 and cast at 101-103. -/
def channelByte [Libm α] (c w : α) : Nat :=
  toU32 (Scalar.round (clamp (gammaCorrect (c /. w) *. lit 255 +. lit (1 / 2)) (lit 0) (lit 255)))

/-- /repo/src/film.rs:87-106; the file content is a string. -/
def Film.writeImagePpm [Libm α] (film : Film α) : String :=
  film.pixels.foldl (fun file p =>
      let c := p.color.map (fun c => channelByte c p.weight)
      file ++ (toString c.r ++ " " ++ toString c.g ++ " " ++ toString c.b ++ "\n"))
    ("P3\n" ++ toString film.resolution.x ++ " " ++ toString film.resolution.y ++ "\n255\n")

end PT
