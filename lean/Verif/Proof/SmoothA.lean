import Verif.Model.Smooth
import Verif.Proof.Par
import Verif.Proof.Query
import Mathlib.Tactic.FinCases
/-
Memory accesses of the loop bodies of the smoothing and denoising filters.
-/
namespace TinyMesh
variable {F : Type}
open Orbit

namespace Prog
variable {α : Type} {R W : Loc → Prop} {m : Mesh F}

theorem Within.topo {x : M F α} : (topo m x).Within R W := by
  unfold Prog.topo; split <;> trivial

theorem Within.loadPos {v : Nat} (h : ∀ c, R (.pos v c)) : (loadPos m v).Within R W := by
  unfold Prog.loadPos; split
  · exact ⟨h 0, fun _ => ⟨h 1, fun _ => ⟨h 2, fun _ => trivial⟩⟩⟩
  · trivial

theorem Within.storePos {v : Nat} {p : Vec3 F} (h : ∀ c, W (.pos v c)) : (storePos m v p).Within R W := by
  unfold Prog.storePos; split
  · exact ⟨h 0, h 1, h 2, trivial⟩
  · trivial

theorem Within.loadArr {n a : Nat} {i : Int} (h : ∀ c, R (.arr a i.toNat c)) :
    (loadArr n a i : Prog Loc F (Vec3 F)).Within R W := by
  unfold Prog.loadArr; split
  · exact ⟨h 0, fun _ => ⟨h 1, fun _ => ⟨h 2, fun _ => trivial⟩⟩⟩
  · trivial

theorem Within.storeArr {a i : Nat} {p : Vec3 F} (h : ∀ c, W (.arr a i c)) : (storeArr a i p).Within R W :=
  ⟨h 0, h 1, h 2, trivial⟩

theorem Within.loadNum {n a : Nat} {i : Int} (h : ∀ c, R (.arr a i.toNat c)) :
    (loadNum n a i : Prog Loc F F).Within R W := by
  unfold Prog.loadNum; split
  · exact ⟨h 0, fun _ => trivial⟩
  · trivial

theorem Within.storeNum {a i : Nat} {x : F} (h : ∀ c, W (.arr a i c)) : (storeNum a i x).Within R W := ⟨h 0, trivial⟩

theorem Within.orThrow {o : Option α} : (orThrow o : Prog Loc F α).Within R W := by
  cases o <;> trivial

theorem Within.topo_bind {β : Type} {x : M F α} {f : α → Prog Loc F β} (h : ∀ a m', x m = .ok a m' → (f a).Within R W) :
    (Prog.topo m x >>= f).Within R W := by
  unfold Prog.topo
  cases e : x m with
  | ok a m' => exact h a m' e
  | err e => trivial

/-! results -/

theorem exec_topo (x : M F α) (s : Loc → F) : (topo m x).exec s =
    match x m with
    | .ok a _ => .ok (a, s)
    | .err e => .error e := by
  unfold Prog.topo; cases x m <;> rfl

theorem exec_topo_ok {x : M F α} {a : α} {m' : Mesh F} (h : x m = .ok a m') (s : Loc → F) : (topo m x).exec s = .ok (a, s) := by
  rw [exec_topo, h]

theorem exec_loadPos {v : Nat} (a : m.vAlive v = true) (s : Loc → F) : (loadPos m v).exec s = .ok (posOf s v, s) := by
  unfold Prog.loadPos; rw [if_pos a]; rfl

end Prog

/-- memory after a store of a position -/
def setP (s : Loc → F) (v : Nat) (p : Vec3 F) : Loc → F
  | .pos u c => if u = v then p.get c else s (.pos u c)
  | .arr a i c => s (.arr a i c)

/-- memory after a store of an array element -/
def setA (s : Loc → F) (a i : Nat) (p : Vec3 F) : Loc → F
  | .pos u c => s (.pos u c)
  | .arr b j c => if b = a ∧ j = i then p.get c else s (.arr b j c)

namespace Prog
variable {m : Mesh F}

theorem exec_storePos {v : Nat} (a : m.vAlive v = true) (p : Vec3 F) (s : Loc → F) :
    (storePos m v p).exec s = .ok ((), setP s v p) := by
  unfold Prog.storePos; rw [if_pos a]
  simp only [exec, Except.ok.injEq, Prod.mk.injEq, true_and]
  funext l
  cases l with
  | pos u c =>
    simp only [setP, Loc.pos.injEq]
    by_cases h : u = v
    · subst h
      fin_cases c <;> simp [Vec3.get]
    · simp [h]
  | arr a i c => simp [setP]

theorem exec_loadArr {n a : Nat} {i : Nat} (h : i < n) (s : Loc → F) :
    (loadArr n a (i : Int)).exec s = .ok (arrOf s a i, s) := by
  unfold Prog.loadArr; rw [if_pos ⟨by omega, by omega⟩]; rfl

theorem exec_storeArr (a i : Nat) (p : Vec3 F) (s : Loc → F) : (storeArr a i p).exec s = .ok ((), setA s a i p) := by
  unfold Prog.storeArr
  simp only [exec, Except.ok.injEq, Prod.mk.injEq, true_and]
  funext l
  cases l with
  | pos u c => simp [setA]
  | arr b j c =>
    simp only [setA, Loc.arr.injEq]
    by_cases h : b = a ∧ j = i
    · obtain ⟨rfl, rfl⟩ := h
      fin_cases c <;> simp [Vec3.get]
    · have : ∀ d : Fin 3, ¬ (b = a ∧ j = i ∧ c = d) := fun d hd => h ⟨hd.1, hd.2.1⟩
      simp [h, this]

end Prog

theorem posOf_setP (s : Loc → F) (v : Nat) (p : Vec3 F) : posOf (setP s v p) v = p := by
  simp [posOf, setP, Vec3.get]

theorem posOf_setP_ne (s : Loc → F) {u v : Nat} (p : Vec3 F) (h : u ≠ v) : posOf (setP s v p) u = posOf s u := by
  simp [posOf, setP, h]

theorem arrOf_setA (s : Loc → F) (a i : Nat) (p : Vec3 F) : arrOf (setA s a i p) a i = p := by
  simp [arrOf, setA, Vec3.get]

theorem posOf_setA (s : Loc → F) (a i : Nat) (p : Vec3 F) (v : Nat) : posOf (setA s a i p) v = posOf s v := rfl

theorem posOf_mem [Scalar F] (m : Mesh F) (v : Nat) : posOf m.mem v = m.vPos v := rfl

/-! ### Which locations the bodies use -/

/-- positions -/
def IsPos : Loc → Prop
  | .pos _ _ => True
  | .arr _ _ _ => False

/-- the position of vertex number `i` -/
def PosAt (m : Mesh F) (i : Nat) : Loc → Prop
  | .pos v _ => m.vs[i]? = some v
  | .arr _ _ _ => False

/-- element `i` of array `a` -/
def ArrAt (a i : Nat) : Loc → Prop
  | .pos _ _ => False
  | .arr b j _ => b = a ∧ j = i

/-- an element of array `a` -/
def InArr (a : Nat) : Loc → Prop
  | .pos _ _ => False
  | .arr b _ _ => b = a

theorem vertexAt_eq {m : Mesh F} {i v : Nat} {m' : Mesh F} (h : vertexAt (i : Int) m = .ok v m') : m.vs[i]? = some v := by
  unfold vertexAt arrayAt at h
  rw [if_neg (by omega)] at h
  simp only [Int.toNat_natCast] at h
  cases e : m.vs[i]? with
  | none => simp [e] at h
  | some u => simp [e] at h; rw [h.1]

section
variable [Scalar F] (m : Mesh F)

theorem cotP_within {R W : Loc → Prop} (h : ∀ l, IsPos l → R l) (x : Nat) : (cotP m x).Within R W := by
  unfold cotP
  refine Prog.Within.bind .topo ?_
  rintro ⟨v0, v1, v2, v3⟩
  have hp : ∀ v c, R (.pos v c) := fun v c => h _ trivial
  exact Prog.Within.bind (.loadPos (hp _)) fun _ => Prog.Within.bind (.loadPos (hp _)) fun _ =>
    Prog.Within.bind (.loadPos (hp _)) fun _ => Prog.Within.bind (.loadPos (hp _)) fun _ => trivial

theorem lapSum_within {R W : Loc → Prop} (h : ∀ l, IsPos l → R l) (cotan : Bool) : ∀ (hs : List Nat) (c : Vec3 F) (s : F),
    (lapSum m cotan hs c s).Within R W
  | [], _, _ => trivial
  | x :: hs, c, s => by
    unfold lapSum
    have k : ∀ w : F, (Prog.topo m (getDst x) >>= fun d => Prog.loadPos m d >>= fun p =>
        lapSum m cotan hs (c.add (Vec3.smul w p)) (s + w)).Within R W := fun w =>
      Prog.Within.bind .topo fun d => Prog.Within.bind (.loadPos fun c => h _ trivial)
        fun p => lapSum_within h cotan hs _ _
    dsimp only
    split
    · exact Prog.Within.bind (cotP_within m h x) k
    · exact k _

theorem lapCent_within (cotan : Bool) (i : Nat) : (lapCent m cotan i).Within IsPos (ArrAt 0 i) := by
  unfold lapCent
  refine Prog.Within.bind .topo fun v => Prog.Within.bind .topo fun hs => Prog.Within.bind
    (lapSum_within m (fun _ h => h) cotan hs _ _) ?_
  rintro ⟨c, s⟩
  exact Prog.Within.bind .orThrow fun c => .storeArr fun _ => ⟨rfl, rfl⟩

theorem loadAll_within {R W : Loc → Prop} (h : ∀ l, IsPos l → R l) : ∀ vs : List Nat, (loadAll m vs).Within R W
  | [] => trivial
  | v :: vs => Prog.Within.bind (.loadPos fun _ => h _ trivial) fun _ => Prog.Within.bind (loadAll_within h vs) fun _ => trivial

theorem tauCent_within (i : Nat) : (tauCent m i).Within IsPos (ArrAt 0 i) := by
  unfold tauCent
  exact Prog.Within.bind .topo fun v => Prog.Within.bind .topo fun us => Prog.Within.bind (loadAll_within m (fun _ h => h) us)
    fun ps => Prog.Within.bind .orThrow fun c => .storeArr fun _ => ⟨rfl, rfl⟩

/-- the position of vertex number `i`, if it is not pinned -/
def MovAt (m : Mesh F) (i : Nat) : Loc → Prop
  | .pos v _ => m.vs[i]? = some v ∧ ∃ m', isPinned v m = .ok false m'
  | .arr _ _ _ => False

theorem lapMove_within (nv : Nat) (eps : F) (i : Nat) :
    (lapMove m nv eps i).Within (fun l => PosAt m i l ∨ ArrAt 0 i l) (MovAt m i) := by
  unfold lapMove
  refine Prog.Within.topo_bind fun v m' hv => Prog.Within.topo_bind fun b m'' hb => ?_
  have hv := vertexAt_eq hv
  split
  · trivial
  · next h =>
    rw [Bool.not_eq_true] at h; subst h
    exact Prog.Within.bind (.loadPos fun _ => Or.inl hv) fun pt => Prog.Within.bind
      (.loadArr fun _ => Or.inr ⟨rfl, by simp⟩) fun c => .storePos fun _ => ⟨hv, _, hb⟩

theorem tauMove_within (nv : Nat) (eps : F) (i : Nat) :
    (tauMove m nv eps i).Within (fun l => PosAt m i l ∨ ArrAt 0 i l) (MovAt m i) := by
  unfold tauMove
  refine Prog.Within.topo_bind fun v m' hv => Prog.Within.topo_bind fun b m'' hb => ?_
  have hv := vertexAt_eq hv
  split
  · trivial
  · next h =>
    rw [Bool.not_eq_true] at h; subst h
    exact Prog.Within.bind (.loadPos fun _ => Or.inl hv) fun pt => Prog.Within.bind
      (.loadArr fun _ => Or.inr ⟨rfl, by simp⟩) fun c => Prog.Within.bind (.loadPos fun _ => Or.inl hv) fun q =>
        .storePos fun _ => ⟨hv, _, hb⟩

end

/-! ### The loops are free of races -/

theorem arr_apart {a : Nat} {i j : Nat} (h : i ≠ j) (l : Loc) (hw : ArrAt a i l) : ¬ ArrAt a j l := by
  cases l with
  | pos v c => exact fun h => h
  | arr b k c => exact fun h' => h (hw.2.symm.trans h'.2)

theorem pos_apart {m : Mesh F} (hn : m.vs.Nodup) {i j : Nat} (h : i ≠ j) (l : Loc) (hw : PosAt m i l) : ¬ PosAt m j l := by
  cases l with
  | arr b k c => exact fun h => h
  | pos v c =>
    intro h'
    obtain ⟨hi, ei⟩ := List.getElem?_eq_some_iff.1 hw
    obtain ⟨hj, ej⟩ := List.getElem?_eq_some_iff.1 h'
    exact h ((List.Nodup.getElem_inj_iff hn).1 (ei.trans ej.symm))

theorem movAt_pos [Scalar F] {m : Mesh F} {i : Nat} {l : Loc} (h : MovAt m i l) : PosAt m i l := by
  cases l with
  | pos v c => exact h.1
  | arr b k c => exact h

theorem cent_raceFree {n : Nat} {body : Nat → Prog Loc F Unit} (h : ∀ i, (body i).Within IsPos (ArrAt 0 i)) :
    RaceFree n body (fun _ => IsPos) (fun i => ArrAt 0 i) where
  within := fun i _ => h i
  apart := by
    intro i _ j _ hij l hw
    rintro (hr | hr)
    · cases l with
      | pos v c => exact hw
      | arr b k c => exact hr
    · exact arr_apart hij l hw hr

theorem move_raceFree [Scalar F] {m : Mesh F} (hn : m.vs.Nodup) {n : Nat} {body : Nat → Prog Loc F Unit}
    (h : ∀ i, (body i).Within (fun l => PosAt m i l ∨ ArrAt 0 i l) (MovAt m i)) :
    RaceFree n body (fun i l => PosAt m i l ∨ ArrAt 0 i l) (fun i => MovAt m i) where
  within := fun i _ => h i
  apart := by
    intro i _ j _ hij l hw
    have hp := movAt_pos hw
    rintro ((hr | hr) | hr)
    · exact pos_apart hn hij l hp hr
    · cases l with
      | pos v c => exact hr
      | arr b k c => exact hp
    · exact pos_apart hn hij l hp (movAt_pos hr)

end TinyMesh
