import Verif.Model.BufferCore

/-!
# `allFramesAsYAML` and `_allFramesAsDot`: what they say about each frame

The functions print text; the model returns the values printed, one record per frame.  Decimal
formatting (three places) and the rounding of the `double` arithmetic on seconds are not modelled:
times and durations stay exact nanoseconds, the rate an exact fraction.
-/
namespace Tf2

/-- The string "no recorded authority", tf2/src/buffer_core.cpp:1199, 1521. -/
def noAuthority : Name := "no recorded authority".toList

/-- `ros::Duration` holds seconds in 32 signed bits (external). -/
def DURATION_MAX : Duration := 2147483647999999999

/-- `ros::Time operator-(ros::Time)` (external): throws `std::runtime_error` when the difference does
not fit a `ros::Duration`; the throw is `none` (same function as `timeSub` of Model/Ros.lean).  Used at tf2/src/buffer_core.cpp:1218, 1543. -/
def timeDiff (a b : Time) : Option Duration :=
  if -2147483649000000000 < (a : Int) - b ∧ (a : Int) - b ≤ DURATION_MAX then some ((a : Int) - b)
  else none

/-- One block of `allFramesAsYAML`, tf2/src/buffer_core.cpp:1207-1218, and the label of one edge of
`_allFramesAsDot`, 1531-1544 (which leaves out `oldest`). -/
structure FrameReport where
  frame : Name
  parent : Name
  broadcaster : Name
  /-- `getListLength()`, numerator of the rate -/
  count : Nat
  /-- denominator of the rate, in nanoseconds: `max(latest - oldest, 0.0001 s)` -/
  ratePer : Nat
  latest : Time
  oldest : Time
  /-- "transform_delay", printed only for a positive `current_time` -/
  delay : Option Int
  /-- "buffer_length" -/
  span : Duration
deriving DecidableEq, Repr

variable {X : Type}

namespace Buf

/-- Body of the loop of `allFramesAsYAML`, tf2/src/buffer_core.cpp:1183-1219, and of the first loop of
`_allFramesAsDot`, 1508-1545, for frame number `i`; `now` is `current_time` in nanoseconds.  No cache
or an empty one: nothing is printed.  A name index out of range is undefined behaviour. -/
def frameReport [Rigid X] (b : Buf X) (now : Int) (i : Nat) : Res (Option FrameReport) :=
  match b.getFrame i with
  | none => .ok none                                                 -- 1187-1190
  | some c =>
    match c.getData 0 with
    | .ub => .ub
    | .fail => .ok none                                              -- 1192-1195
    | .ok s =>
      match b.frameIDsReverse[i]?, b.frameIDsReverse[s.parent]? with
      | some n, some p =>
        match timeDiff c.latestStamp c.oldestStamp with
        | none => .throw .runtime
        | some d =>
          .ok (some
            { frame := n
              parent := p
              broadcaster := (b.authority i).getD noAuthority        -- 1199-1203
              count := c.listLength                                  -- 1205
              ratePer := max (c.latestStamp - c.oldestStamp) 100000  -- 1205-1206
              latest := c.latestStamp
              oldest := c.oldestStamp
              delay := if 0 < now then some (now - c.latestStamp) else none  -- 1215-1217
              span := d })                                           -- 1218
      | _, _ => .ub

/-- Collects the blocks for a list of frame numbers. -/
def frameReports [Rigid X] (b : Buf X) (now : Int) : List Nat → Res (List FrameReport)
  | [] => .ok []
  | i :: r =>
    match b.frameReport now i with
    | .ub => .ub
    | .throw e => .throw e
    | .ok l =>
      match frameReports b now r with
      | .ub => .ub
      | .throw e => .throw e
      | .ok ls => .ok (l.toList ++ ls)

/-- `allFramesAsYAML(current_time)`, tf2/src/buffer_core.cpp:1168-1223, as the list of its blocks (the
"{}" of an untouched buffer is the empty list).  Also the edges of `_allFramesAsDot`, 1508-1545: the
two loops print the same values. -/
def allFramesReport [Rigid X] (b : Buf X) (now : Int) : Res (List FrameReport) :=
  b.frameReports now (List.range' 1 (b.frames.length - 1))

/-- Whether the second loop of `_allFramesAsDot` draws the legend above frame number `i`,
tf2/src/buffer_core.cpp:1547-1573, and the name it points to. -/
def dotRoot [Rigid X] (b : Buf X) (now : Int) (i : Nat) : Res (Option Name) :=
  match b.getFrame i with
  | none =>                                                          -- 1551-1559
    if 0 < now then
      match b.frameIDsReverse[i]? with
      | some n => .ok (some n)
      | none => .ub
    else .ok none
  | some c =>
    let root (p : Nat) : Res (Option Name) :=                        -- 1566-1573
      match b.frameIDsReverse[p]?, b.frameIDsReverse[i]? with
      | some q, some n => if q = noParentName then .ok (some n) else .ok none
      | _, _ => .ub
    match c.getData 0 with
    | .ub => .ub
    | .ok s => root s.parent
    | .fail => root 0

/-- Collects the legends for a list of frame numbers. -/
def dotRoots [Rigid X] (b : Buf X) (now : Int) : List Nat → Res (List Name)
  | [] => .ok []
  | i :: r =>
    match b.dotRoot now i with
    | .ub => .ub
    | .throw e => .throw e
    | .ok l =>
      match dotRoots b now r with
      | .ub => .ub
      | .throw e => .throw e
      | .ok ls => .ok (l.toList ++ ls)

/-- `_allFramesAsDot(current_time)`, tf2/src/buffer_core.cpp:1494-1576: the labelled edges and the
frames the legend points to. -/
def allFramesDot [Rigid X] (b : Buf X) (now : Int) : Res (List FrameReport × List Name) :=
  match b.allFramesReport now with
  | .ub => .ub
  | .throw e => .throw e
  | .ok es =>
    match b.dotRoots now (List.range' 1 (b.frames.length - 1)) with
    | .ub => .ub
    | .throw e => .throw e
    | .ok rs => .ok (es, rs)

end Buf

end Tf2
