import Verif.Basic.Outcome
/-!
# Model of traits/trait_algo.hpp: layouts, positions, shape assembly

Layouts are the tag types of traits/basic_traits.hpp:6-32. A position is a compile-time constant; `none` stands for
an unspecialised variable template, whose use as a template argument does not compile.
-/
namespace StdNN

/-- Image layouts (traits/basic_traits.hpp:9-14). -/
inductive Order where
  | hw | hwc | chw | nhwc | nchw
  deriving DecidableEq, Repr

/-- Filter layouts (traits/basic_traits.hpp:16-18). -/
inductive FOrder where
  | rscd | dcrs
  deriving DecidableEq, Repr

namespace Order

/-- `rank_of` (traits/trait_algo.hpp:7-14); `hwc` and `chw` have no specialisation. -/
def rankOf : Order → Option Nat
  | hw => some 2
  | nchw => some 4
  | nhwc => some 4
  | _ => none

/-- `batch_position` (traits/trait_algo.hpp:16-21). -/
def batchPos : Order → Option Nat
  | nchw => some 0
  | nhwc => some 0
  | _ => none

/-- `channel_position` (traits/trait_algo.hpp:23-32). -/
def channelPos : Order → Option Nat
  | chw => some 0
  | hwc => some 2
  | nchw => some 1
  | nhwc => some 3
  | hw => none

/-- `height_position` (traits/trait_algo.hpp:34-43). -/
def heightPos : Order → Option Nat
  | chw => some 1
  | hwc => some 0
  | nchw => some 2
  | nhwc => some 1
  | hw => none

/-- `width_position` (traits/trait_algo.hpp:45-54). -/
def widthPos : Order → Option Nat
  | chw => some 2
  | hwc => some 1
  | nchw => some 3
  | nhwc => some 2
  | hw => none

/-- `bias_position` (traits/trait_algo.hpp:56-59). -/
def biasPos : Order → Option Nat
  | hw => some 1
  | o => o.channelPos

end Order

namespace FOrder

/-- `filter_height_position` (traits/trait_algo.hpp:80-85). -/
def heightPos : FOrder → Nat
  | rscd => 0
  | dcrs => 2

/-- `filter_width_position` (traits/trait_algo.hpp:87-92). -/
def widthPos : FOrder → Nat
  | rscd => 1
  | dcrs => 3

/-- `filter_in_channel_position` (traits/trait_algo.hpp:94-99). -/
def inPos : FOrder → Nat
  | rscd => 2
  | dcrs => 1

/-- `filter_out_channel_position` (traits/trait_algo.hpp:101-106). -/
def outPos : FOrder → Nat
  | rscd => 3
  | dcrs => 0

end FOrder

/-- `std::get<p>(dims)` (traits/trait_algo.hpp:64); a position outside the rank does not compile. -/
def getDim (p : Option Nat) (dims : List Nat) : Outcome Nat :=
  match p with
  | some p => match dims[p]? with
    | some d => .ok d
    | none => .ub
  | none => .ub

/-- `batch_size<order>` (traits/trait_algo.hpp:61-65). -/
def batchSize (o : Order) (x : List Nat) : Outcome Nat := getDim o.batchPos x

/-- `channel_size<order>` (traits/trait_algo.hpp:67-71). -/
def channelSize (o : Order) (x : List Nat) : Outcome Nat := getDim o.channelPos x

/-- `image_shape<order>` (traits/trait_algo.hpp:73-78). -/
def imageShape (o : Order) (x : List Nat) : Outcome (Nat × Nat) := do
  let h ← getDim o.heightPos x
  let w ← getDim o.widthPos x
  return (h, w)

/-- `filter_shape<order>` (traits/trait_algo.hpp:108-113). -/
def filterShape (o : FOrder) (y : List Nat) : Outcome (Nat × Nat) := do
  let r ← getDim (some o.heightPos) y
  let s ← getDim (some o.widthPos) y
  return (r, s)

/-- `filter_in_channel_size<order>` (traits/trait_algo.hpp:115-119). -/
def filterIn (o : FOrder) (y : List Nat) : Outcome Nat := getDim (some o.inPos) y

/-- `filter_out_channel_size<order>` (traits/trait_algo.hpp:121-125). -/
def filterOut (o : FOrder) (y : List Nat) : Outcome Nat := getDim (some o.outPos) y

/-- `batched_image_shape<order>(n, shp, c)` (traits/trait_algo.hpp:129-150, 177-183); only the two batched layouts have a
specialisation. -/
def batchedImageShape (o : Order) (n : Nat) (hw : Nat × Nat) (c : Nat) : Outcome (List Nat) :=
  match o with
  | .nhwc => .ok [n, hw.1, hw.2, c]
  | .nchw => .ok [n, c, hw.1, hw.2]
  | _ => .ub

/-- `conv_filter_shape<order>(c, shp, d)` (traits/trait_algo.hpp:152-173, 185-191). -/
def convFilterShape (o : FOrder) (c : Nat) (rs : Nat × Nat) (d : Nat) : List Nat :=
  match o with
  | .rscd => [rs.1, rs.2, c, d]
  | .dcrs => [d, c, rs.1, rs.2]

end StdNN
