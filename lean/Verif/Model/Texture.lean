import Verif.Model.Transform

/-! # /repo/src/texture.rs

A texture is the function computed by `evaluate`; a mapping is the function computed by `map`. -/

namespace PT
variable {α : Type} [Scalar α] {T : Type}

/-- `f32 as i64` -/
def toI64 (x : α) : Int := Scalar.toInt x (-2 ^ 63) (2 ^ 63 - 1)
/-- Two's complement wrap-around of an `i64` sum (release build). -/
def wrapI64 (n : Int) : Int := (n + 2 ^ 63) % 2 ^ 64 - 2 ^ 63

/-- /repo/src/texture.rs:33-38 -/
def constantTexture (value : T) : Interaction α → T := fun _ => value

/-- /repo/src/texture.rs:56-66; `Int.tmod` is Rust's `%`. -/
def checkerboard (mapping : Interaction α → V2 α) (tex1 tex2 : T) : Interaction α → T := fun i =>
  let st := mapping i
  if Int.tmod (wrapI64 (toI64 (Scalar.floor st.x) + toI64 (Scalar.floor st.y))) 2 = 0 then tex1 else tex2

/-- /repo/src/texture.rs:84-94 -/
def checkerboard3D (mapping : Interaction α → V3 α) (tex1 tex2 : T) : Interaction α → T := fun i =>
  let p := mapping i
  if Int.tmod (wrapI64 (wrapI64 (toI64 (Scalar.floor p.x) + toI64 (Scalar.floor p.y)) + toI64 (Scalar.floor p.z))) 2 = 0
    then tex1 else tex2

/-- /repo/src/texture.rs:109-116 -/
def uvMapping (su sv du dv : α) : Interaction α → V2 α := fun i =>
  ⟨i.uv.x *. su +. du, i.uv.y *. sv +. dv⟩

/-- /repo/src/texture.rs:128-132 -/
def identityMapping3D (worldToTexture : Transform α) : Interaction α → V3 α := fun i =>
  worldToTexture.apply pointTransform i.p

end PT
