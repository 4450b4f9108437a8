import Verif.Via.Model
/-!
# C45: what may be cached, C82: cached states
-/
namespace Verif.Via

/-! ## Specification: where a type has pointers -/

mutual
/-- Whether some value of the type holds a pointer: an array of no elements holds none. -/
def Ty.HasPointer : Ty → Prop
  | .scalar _ => False
  | .pointer _ => True
  | .array n t => n ≠ 0 ∧ t.HasPointer
  | .struct fs => fs.HasPointer
/-- The same for fields. -/
def Tys.HasPointer : Tys → Prop
  | .nil => False
  | .cons t ts => t.HasPointer ∨ ts.HasPointer
end

mutual
/-- There is no array, at any depth. -/
def Ty.NoArray : Ty → Prop
  | .array _ _ => False
  | .struct fs => fs.NoArray
  | _ => True
/-- The same for fields. -/
def Tys.NoArray : Tys → Prop
  | .nil => True
  | .cons t ts => t.NoArray ∧ ts.NoArray
end

/-! ## Lemmas -/

theorem roundUp_le (n a : Nat) (h : 0 < a) : n ≤ roundUp n a := by
  unfold roundUp
  have := Nat.div_add_mod (n + a - 1) a
  have := Nat.mod_lt (n + a - 1) h
  rw [Nat.mul_comm]
  omega

mutual
theorem align_pos : ∀ t : Ty, 0 < t.align
  | .scalar n => by simp only [Ty.align]; omega
  | .pointer _ => by simp [Ty.align]
  | .array _ t => by simp only [Ty.align]; exact align_pos t
  | .struct fs => by simp only [Ty.align]; exact aligns_pos fs
theorem aligns_pos : ∀ ts : Tys, 0 < ts.align
  | .nil => by simp [Tys.align]
  | .cons t ts => by simp only [Tys.align]; have := align_pos t; omega
end

theorem ends_ge : ∀ (ts : Tys) (off : Nat), off ≤ ts.ends off
  | .nil, off => by simp [Tys.ends]
  | .cons t ts, off => by
    simp only [Tys.ends]
    have := ends_ge ts (roundUp off t.align + t.size)
    have := roundUp_le off t.align (align_pos t)
    omega

theorem ends_cons (t : Ty) (ts : Tys) (off b : Nat) (h : (Tys.cons t ts).ends off ≤ b) :
    t.size ≤ b ∧ ∃ off', ts.ends off' ≤ b := by
  simp only [Tys.ends] at h
  have := ends_ge ts (roundUp off t.align + t.size)
  exact ⟨by omega, _, h⟩

theorem struct_ends (fs : Tys) : fs.ends 0 ≤ (Ty.struct fs).size := by
  simp only [Ty.size]
  exact roundUp_le _ _ (aligns_pos fs)

mutual
theorem canCache_of : ∀ t : Ty, t.size ≤ 16 → ¬ t.HasPointer → canCache t = true
  | .scalar n, h, _ => by rw [canCache, if_neg (by omega)]
  | .pointer _, _, h => absurd trivial h
  | .array n t, h, _ => by rw [canCache, if_neg (by omega)]
  | .struct fs, h, hp => by
    rw [canCache, if_neg (by omega)]
    exact canCacheAll_of fs 0 (Nat.le_trans (struct_ends fs) h) hp
theorem canCacheAll_of : ∀ (ts : Tys) (off : Nat), ts.ends off ≤ 16 → ¬ ts.HasPointer →
    canCacheAll ts = true
  | .nil, _, _, _ => rfl
  | .cons t ts, off, h, hp => by
    obtain ⟨h1, o, h2⟩ := ends_cons t ts off 16 h
    rw [canCacheAll, canCache_of t h1 (fun x => hp (Or.inl x)), if_pos rfl]
    exact canCacheAll_of ts o h2 (fun x => hp (Or.inr x))
end

mutual
theorem canCache_no : ∀ t : Ty, t.NoArray → canCache t = true → ¬ t.HasPointer
  | .scalar _, _, _ => fun h => h
  | .pointer _, _, h => by
    rw [canCache] at h
    split at h <;> cases h
  | .array _ _, h, _ => h.elim
  | .struct fs, h, hc => by
    rw [canCache] at hc
    split at hc
    · cases hc
    · exact canCacheAll_no fs h hc
theorem canCacheAll_no : ∀ ts : Tys, ts.NoArray → canCacheAll ts = true → ¬ ts.HasPointer
  | .nil, _, _ => fun h => h
  | .cons t ts, ⟨h1, h2⟩, hc => by
    rw [canCacheAll] at hc
    split at hc
    · rename_i ht
      rintro (x | x)
      · exact canCache_no t h1 ht x
      · exact canCacheAll_no ts h2 hc x
    · cases hc
end

/-! ## C45 -/

/-- C45: a type that is accepted has at most 16 bytes. -/
theorem accepted_size (t : Ty) (h : canCache t = true) : t.size ≤ 16 := by
  cases t <;> (rw [canCache] at h; split at h <;> first | cases h; done | omega | cases h)

/-- C45: no type that could be cached is refused. -/
theorem accepts_all (t : Ty) (hs : t.size ≤ 16) (hp : ¬ t.HasPointer) : canCache t = true :=
  canCache_of t hs hp

/-- C45, partial: among the types without arrays, exactly those of at most 16 bytes that hold no
pointers are accepted. -/
theorem accepted_iff_partial (t : Ty) (h : t.NoArray) :
    canCache t = true ↔ t.size ≤ 16 ∧ ¬ t.HasPointer :=
  ⟨fun hc => ⟨accepted_size t hc, canCache_no t h hc⟩, fun ⟨a, b⟩ => accepts_all t a b⟩

example : (Ty.struct (.cons (.scalar 1) (.cons (.struct (.cons (.scalar 8) .nil)) .nil))).NoArray ∧
    canCache (Ty.struct (.cons (.scalar 1) (.cons (.struct (.cons (.scalar 8) .nil)) .nil))) = true := by
  refine ⟨⟨trivial, ⟨trivial, trivial⟩, trivial⟩, ?_⟩
  decide +kernel

/-- C45 fails: an array of pointers is accepted. -/
theorem accepted_fails : ∃ t : Ty, canCache t = true ∧ t.HasPointer :=
  ⟨.array 2 (.pointer .ptr), by decide +kernel, by simp [Ty.HasPointer]⟩

/-- Why: every array of at most 16 bytes is accepted, whatever its elements. -/
theorem arrays_accepted (n : Nat) (t : Ty) (h : n * t.size ≤ 16) : canCache (.array n t) = true := by
  rw [canCache, if_neg (by simp only [Ty.size]; omega)]

/-! ## C82 -/

/-- All the types of `Cacheable` fit in the sixteen bytes of a state. -/
theorem cacheable_fit : ∀ n ∈ cacheable, n ≤ 16 := by decide +kernel

/-- C82: a state gives back what it was made of. -/
theorem cached_newCache {P : Type} [DecidableEq P] (p : P) (v : List UInt8) (h : v.length ∈ cacheable) :
    cached p v.length (newCache p v) = some v := by
  simp [cached, newCache]

/-- C82: a state of another proxy is refused, with a panic. -/
theorem cached_other {P : Type} [DecidableEq P] (p q : P) (v : List UInt8) (n : Nat) (h : p ≠ q) :
    cached q n (newCache p v) = none := by
  simp [cached, newCache, h]

example : (List.replicate 3 (7 : UInt8)).length ∈ cacheable := by decide +kernel

/-- C82: a value made from a proxy and its state shows them again. -/
theorem internal_new {A P : Type} (typeOf : A → P) (a : A) (s : State P) (h : s.rtype = typeOf a) :
    internal typeOf (new a s) = s ∧ (new a s).proxy = a := by
  cases s; simp only at h; subst h; exact ⟨rfl, rfl⟩

/-- C82: a living proxy of the right type is used as it is. -/
theorem proxy_reused {A V P : Type} (typeOf : A → P) (isV : A → Option V) (alive : A → State P → Bool)
    (told : A → Bool) (back : V → Option A) (alloc : AnyV A → V × State P) (val : AnyV A) (v : V)
    (hv : isV val.proxy = some v) (ha : alive val.proxy (internal typeOf val) = true) :
    proxy typeOf isV alive told back alloc val = some (v, internal typeOf val, none) := by
  simp only [proxy, hv, ha]

/-- C82: otherwise what is allocated is used, and the old proxy is told about it. -/
theorem proxy_replaced {A V P : Type} (typeOf : A → P) (isV : A → Option V) (alive : A → State P → Bool)
    (told : A → Bool) (back : V → Option A) (alloc : AnyV A → V × State P) (val : AnyV A) (a : A)
    (hd : isV val.proxy = none ∨ alive val.proxy (internal typeOf val) = false)
    (hb : back (alloc val).1 = some a) :
    proxy typeOf isV alive told back alloc val = some ((alloc val).1, (alloc val).2,
      if told val.proxy then some (new a (alloc val).2) else none) := by
  unfold proxy
  split
  · rename_i x y
    rcases hd with h | h
    · rw [h] at x; cases x
    · rw [h] at y; cases y
  · by_cases ht : told val.proxy = true
    · simp only [ht, hb, if_true]
    · simp only [ht, if_false, Bool.false_eq_true]

/-- C82 fails for `TryCache`: it succeeds exactly for types that `canCache` accepts, but the value
it returns is whatever lies behind the variable in memory, and not the value it was given. -/
theorem tryCache_value (t : Ty) (tw dw : UInt64) (b : UInt64 × UInt64) (r) :
    tryCache (some t) tw dw b = some r ↔ canCache t = true ∧ r = ((tw, dw), b) := by
  simp only [tryCache]
  cases canCache t <;> simp [eq_comm]

/-- C82 fails: two calls with the same value give different states. -/
theorem tryCache_fails : ∃ (t : Ty) (tw dw : UInt64) (b b' : UInt64 × UInt64) (r r' : _),
    tryCache (some t) tw dw b = some r ∧ tryCache (some t) tw dw b' = some r' ∧ r.2 ≠ r'.2 := by
  have h : canCache (.scalar 8) = true := by decide +kernel
  exact ⟨.scalar 8, 1, 2, (0, 0), (1, 0), _, _, (tryCache_value ..).2 ⟨h, rfl⟩,
    (tryCache_value ..).2 ⟨h, rfl⟩, by decide⟩

end Verif.Via
