import Verif.Model.ErrorText
import Verif.Spec.Latest

/-!
# Specification vocabulary for error texts: what a text may say, and when it is true
-/
namespace Tf2

variable {X : Type}

/-- The stamps a cache holds (a static transform has none). -/
def Cache.stamps : Cache X → List Time
  | .dyn _ st => st.map Sample.stamp
  | .stat _ => []

/-- Printed times and durations take at most 20 characters (`4294967295.999999999`), none of them
NUL. -/
structure Fits (R : Render) : Prop where
  time : ∀ t, (R.time t).length ≤ 20
  dur : ∀ d, (R.dur d).length ≤ 20
  timeChars : ∀ t, Char.ofNat 0 ∉ R.time t
  durChars : ∀ d, Char.ofNat 0 ∉ R.dur d

/-- `Tells R held t w`: `w` is a true sentence about a request for time `t` on stored stamps `held`:
there is one and it is another; or the newest is older; or the oldest is newer. -/
inductive Tells (R : Render) (held : List Time) (t : Time) : Name → Prop where
  | only {s : Time} : held = [s] → s ≠ t →
      Tells R held t ("Lookup would require extrapolation at time ".toList ++ R.time t ++
        ", but only time ".toList ++ R.time s ++ " is in the buffer".toList)
  | future {s : Time} : 2 ≤ held.length → s ∈ held → (∀ s' ∈ held, s' ≤ s) → s < t →
      Tells R held t ("Lookup would require extrapolation ".toList ++ R.dur ((t : Int) - s) ++
        "s into the future.  Requested time ".toList ++ R.time t ++
        " but the latest data is at time ".toList ++ R.time s)
  | past {s : Time} : 2 ≤ held.length → s ∈ held → (∀ s' ∈ held, s ≤ s') → t < s →
      Tells R held t ("Lookup would require extrapolation ".toList ++ R.dur ((s : Int) - t) ++
        "s into the past.  Requested time ".toList ++ R.time t ++
        " but the earliest data is at time ".toList ++ R.time s)

/-- The end of a text about missing data. -/
def whenText (target source : Name) : Name :=
  ", when looking up transform from frame [".toList ++ cstr source ++ "] to frame [".toList ++
    cstr target ++ "]".toList

/-- The text about two trees. -/
def apartText (target source : Name) : Name :=
  "Could not find a connection between '".toList ++ target ++ "' and '".toList ++ source ++
    "' because they are not part of the same tree.Tf has two or more unconnected trees.".toList

/-- The text about a chain that is too long: it lists every frame with its newest parent. -/
def deepText (lines : List (Name × Name)) : Name :=
  "The tf tree is invalid because it contains a loop.\n".toList ++
    lines.flatMap (fun l => "Frame ".toList ++ l.1 ++ " exists with parent ".toList ++ l.2 ++ ".\n".toList) ++
    "\n".toList

/-- `Explains R b t target source old x w`: `w` is a true text for the failure, of kind `x`, of a lookup
between two frames at time `t`; the string held `old` before.
* `apart`: the two chains of stored transforms end at different frames, neither of which ever
  had a transform;
* `deep`: one of the chains has more than 1000 transforms;
* `outside`: a frame on one of the chains has stored stamps, none of which serve `t`, and the text
  says which;
* `silentSource`, `silentTarget`: a frame on the chain has lost its data, or its parent is the reserved
  name: there is no reason in the text, or what the string held before stands for it. -/
inductive Explains [Rigid X] (R : Render) (b : Buf X) (t : Time) (target source : Name) (old : Name) :
    Exc → Name → Prop where
  | apart {g s r r' n m : Nat} : IsFrame b target g → IsFrame b source s →
      EndsAt b t s r n → EndsAt b t g r' m → r ≠ r' → b.getFrame r = none → b.getFrame r' = none →
      Explains R b t target source old .connectivity (apartText target source)
  | deep {n : Name} {i c k : Nat} {x : X} {lines : List (Name × Name)} :
      n = target ∨ n = source → IsFrame b n i → Chain b t i c x k → 1000 < k →
      b.allFrames = .ok lines → Explains R b t target source old .lookup (deepText lines)
  | outside {n : Name} {i f k : Nat} {x : X} {c : Cache X} {w : Name} :
      n = target ∨ n = source → IsFrame b n i → Chain b t i f x k → b.getFrame f = some c →
      Tells R c.stamps t w →
      Explains R b t target source old .extrapolation ((w ++ whenText target source).take 999)
  | silentSource {i f k : Nat} {x : X} {c : Cache X} :
      IsFrame b source i → Chain b t i f x k → b.getFrame f = some c →
      ((c.stamps = [] ∧ c.getData t = .fail) ∨ ∃ s, c.getData t = .ok s ∧ s.parent = 0) →
      Explains R b t target source old .extrapolation ((whenText target source).take 999)
  | silentTarget {i f k : Nat} {x : X} {c : Cache X} :
      IsFrame b target i → Chain b t i f x k → b.getFrame f = some c →
      ((c.stamps = [] ∧ c.getData t = .fail) ∨ ∃ s, c.getData t = .ok s ∧ s.parent = 0) →
      Explains R b t target source old .extrapolation ((cstr old ++ whenText target source).take 999)

/-- The same for a request for the latest transform: about the newest transforms, or about the latest
common time `t'` that the request stands for. -/
inductive ExplainsLatest [Rigid X] (R : Render) (b : Buf X) (target source : Name) (old : Name) :
    Exc → Name → Prop where
  | apart {g s r r' : Nat} : IsFrame b target g → IsFrame b source s →
      NewestRoot b s r → NewestRoot b g r' → r ≠ r' →
      ExplainsLatest R b target source old .connectivity (apartText target source)
  | deep {n : Name} {i c : Nat} {l : List (Time × Nat)} {lines : List (Name × Name)} :
      n = target ∨ n = source → IsFrame b n i → NewestPath b i c l → 1000 < l.length →
      b.allFrames = .ok lines → ExplainsLatest R b target source old .lookup (deepText lines)
  | common {g s : Nat} {t' : Time} {x : Exc} {w : Name} :
      IsFrame b target g → IsFrame b source s → b.latestCommonTime g s = .ok t' →
      Explains R b t' target source old x w → ExplainsLatest R b target source old x w

/-- The difference of the two times does not fit a `ros::Duration`: 2³¹ seconds or more. -/
def FarApart (t s : Time) : Prop :=
  s + 2147483648000000000 ≤ t ∨ t + 2147483648000000000 ≤ s

/-- `t'` is the time a request for `t` between frames `g` and `s` is about: `t` itself, or the latest
common time. -/
def AboutTime (b : Buf X) (g s : Nat) (t t' : Time) : Prop :=
  (t ≠ 0 ∧ t' = t) ∨ (t = 0 ∧ b.latestCommonTime g s = .ok t')

/-- On the way up from frame `i` there is data 2³¹ s or more from `t`. -/
def FarOn [Rigid X] (b : Buf X) (t : Time) (i : Nat) : Prop :=
  ∃ f x n c s, Chain b t i f x n ∧ b.getFrame f = some c ∧ s ∈ c.stamps ∧ FarApart t s

/-- What a text may be after a failed request for `t`. -/
def ExplainsAny [Rigid X] (R : Render) (b : Buf X) (t : Time) (target source old : Name) (x : Exc) (w : Name) : Prop :=
  if t = 0 then ExplainsLatest R b target source old x w else Explains R b t target source old x w

/-- The digit of `n` at `10^k`. -/
def digitAt (n k : Nat) : Char := Char.ofNat (48 + n / 10 ^ k % 10)

/-- Nanoseconds printed as seconds with nine decimal places, exactly (below 10¹⁰ s). -/
def decimal (n : Nat) : Name :=
  ([18, 17, 16, 15, 14, 13, 12, 11, 10].map (digitAt n)).dropWhile (· = '0') ++
    [digitAt n 9] ++ ['.'] ++ [8, 7, 6, 5, 4, 3, 2, 1, 0].map (digitAt n)

/-- A rendering for the examples: exact decimals. -/
def decimalRender : Render where
  time t := decimal t
  dur d := decimal d.toNat
  range := "Duration is out of dual 32-bit range".toList

end Tf2
