import Verif.Model.Cache

/-!
# Specification vocabulary for time caches

Nothing here mentions how the cache is implemented; only samples, stamps and call histories.
-/
namespace Tf2

variable {X : Type}

/-- Newest first, no two samples with the same stamp. -/
def NewestFirst (st : List (Sample X)) : Prop := st.Pairwise (fun a b => b.stamp < a.stamp)

/-- `s` is the first sample with its stamp among the attempts (in order of attempt). -/
def FirstWithStamp (att : List (Sample X)) (s : Sample X) : Prop :=
  att.find? (fun a => a.stamp == s.stamp) = some s

/-- `s` is inside the storage window of length `D` that ends at the newest attempted stamp. -/
def InWindow (D : Duration) (att : List (Sample X)) (s : Sample X) : Prop :=
  ∀ a ∈ att, (a.stamp : Int) ≤ s.stamp + D

/-- What a time cache should hold after the attempts `att`. -/
def IsWindow (D : Duration) (att st : List (Sample X)) : Prop :=
  NewestFirst st ∧ ∀ s, s ∈ st ↔ FirstWithStamp att s ∧ InWindow D att s

/-- Adding `D` to every attempted stamp stays in the range of `ros::Time`. -/
def Representable (D : Duration) (att : List (Sample X)) : Prop :=
  ∀ a ∈ att, 0 ≤ (a.stamp : Int) + D ∧ (a.stamp : Int) + D ≤ TIME_MAX

/-- A call on a time cache. -/
inductive CacheOp (X : Type) where
  | insert (s : Sample X)
  | clear

/-- The samples attempted since creation or the last clear, in order. -/
def attempts : List (CacheOp X) → List (Sample X) → List (Sample X)
  | [], acc => acc
  | .insert s :: r, acc => attempts r (acc ++ [s])
  | .clear :: r, _ => attempts r []

/-- Runs a history of calls on a cache. -/
def Cache.run (c : Cache X) : List (CacheOp X) → Cache X
  | [] => c
  | .insert s :: r => Cache.run (c.insert s).1 r
  | .clear :: r => Cache.run c.clearList r

/-- A time cache (dynamic) with storage duration `D` that some history of calls produces. -/
def ReachableCache (D : Duration) (st : List (Sample X)) : Prop :=
  ∃ ops, Cache.run (.dyn D []) ops = .dyn D st

/-- Two stored samples are adjacent: no stored sample lies strictly between them. -/
def Adjacent (st : List (Sample X)) (older newer : Sample X) : Prop :=
  older ∈ st ∧ newer ∈ st ∧ older.stamp < newer.stamp ∧
    ∀ s ∈ st, s.stamp ≤ older.stamp ∨ newer.stamp ≤ s.stamp

end Tf2
