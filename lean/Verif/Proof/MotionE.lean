import Verif.Proof.MotionC
import Verif.Proof.Par
import Verif.Model.Remesh
/-
Smoothing, denoising and remeshing move with the mesh.
-/
namespace TinyMesh
namespace Motion
variable {g : Motion} {α β γ δ : Type}

/-! ### Shared memory -/

/-- what the motion does to an element of a local array -/
inductive Kind where
  | any
  | point
  | dir
  | num

/-- the memory of a loop on the moved mesh, where `K` says what the arrays hold -/
def MemSim (g : Motion) (K : Nat → Nat → Kind) (s s' : Loc → ℝ) : Prop :=
  (∀ v, posOf s' v = g.pt (posOf s v)) ∧ ∀ a i, match K a i with
    | .any => True
    | .point => arrOf s' a i = g.pt (arrOf s a i)
    | .dir => arrOf s' a i = g.vec (arrOf s a i)
    | .num => s' (.arr a i 0) = s (.arr a i 0)

/-- outcomes of two programs -/
def ResSim (g : Motion) (K : Nat → Nat → Kind) (φ : α → β) : Except Err (α × (Loc → ℝ)) → Except Err (β × (Loc → ℝ)) → Prop
  | .ok (a, t), .ok (b, t') => b = φ a ∧ g.MemSim K t t'
  | .error e, .error e' => e = e'
  | _, _ => False

/-- two programs for the body of a loop -/
def PSim (g : Motion) (K K' : Nat → Nat → Kind) (φ : α → β) (p : Prog Loc ℝ α) (p' : Prog Loc ℝ β) : Prop :=
  ∀ s s', g.MemSim K s s' → g.ResSim K' φ (p.exec s) (p'.exec s')

namespace PSim
variable {K K' K'' : Nat → Nat → Kind}

theorem ret {φ : α → β} {a : α} {b : β} (h : b = φ a) : g.PSim K K φ (.ret a) (.ret b) := fun _ _ H => ⟨h, H⟩

theorem pureId {a : α} : g.PSim K K id (.ret a : Prog Loc ℝ α) (.ret a) := fun _ _ H => ⟨rfl, H⟩

theorem fail {φ : α → β} {e : Err} : g.PSim K K' φ (.fail e) (.fail e) := fun _ _ _ => rfl

theorem bind {φ : α → β} {ψ : γ → δ} {p : Prog Loc ℝ α} {p' : Prog Loc ℝ β} {f : α → Prog Loc ℝ γ} {f' : β → Prog Loc ℝ δ}
    (h : g.PSim K K' φ p p') (k : ∀ a, g.PSim K' K'' ψ (f a) (f' (φ a))) : g.PSim K K'' ψ (p >>= f) (p' >>= f') := by
  intro s s' H
  have := h s s' H
  rw [Prog.exec_bind, Prog.exec_bind]
  rcases hx : p.exec s with e | ⟨a, t⟩ <;> rcases hy : p'.exec s' with e' | ⟨b, t'⟩ <;> rw [hx, hy] at this
  · simpa [ResSim] using this
  · exact this.elim
  · exact this.elim
  · obtain ⟨h1, h2⟩ := this
    subst h1
    exact k a t t' h2

theorem bindId {ψ : γ → δ} {p p' : Prog Loc ℝ α} {f : α → Prog Loc ℝ γ} {f' : α → Prog Loc ℝ δ}
    (h : g.PSim K K' id p p') (k : ∀ a, g.PSim K' K'' ψ (f a) (f' a)) : g.PSim K K'' ψ (p >>= f) (p' >>= f') := bind h k

theorem topo {φ : α → β} {m : Mesh ℝ} {x : M ℝ α} {y : M ℝ β} (h : g.Sim φ x y) :
    g.PSim K K φ (Prog.topo m x) (Prog.topo (g.mesh m) y) := by
  unfold Prog.topo
  rw [h m]
  cases x m with
  | ok a m' => exact ret rfl
  | err e => exact fail

theorem topoId {m : Mesh ℝ} {x : M ℝ α} (h : g.Same x) : g.PSim K K id (Prog.topo m x) (Prog.topo (g.mesh m) x) := topo h

theorem ite {φ : α → β} {c : Prop} [Decidable c] {x x' : Prog Loc ℝ α} {y y' : Prog Loc ℝ β} (h : g.PSim K K' φ x y)
    (h' : g.PSim K K' φ x' y') : g.PSim K K' φ (if c then x else x') (if c then y else y') := by
  split
  · exact h
  · exact h'

theorem orThrow {φ : α → β} {o : Option α} {o' : Option β} (h : o' = o.map φ) : g.PSim K K φ (Prog.orThrow o) (Prog.orThrow o') := by
  subst h
  cases o
  · exact fail
  · exact ret rfl

theorem loadPos {m : Mesh ℝ} {v : Nat} : g.PSim K K g.pt (Prog.loadPos m v) (Prog.loadPos (g.mesh m) v) := by
  exact PSim.ite (c := m.vAlive v = true) (fun s s' H => ⟨H.1 v, H⟩) PSim.fail

theorem storePos {m : Mesh ℝ} {v : Nat} {p : Vec3 ℝ} : g.PSim K K id (Prog.storePos m v p) (Prog.storePos (g.mesh m) v (g.pt p)) := by
  refine PSim.ite (c := m.vAlive v = true) (fun s s' H => ?_) PSim.fail
  refine ⟨rfl, fun u => ?_, fun a i => ?_⟩
  · have := H.1 u
    by_cases hu : u = v
    · subst hu
      simp [posOf]
    · simpa [posOf, hu] using this
  · have := H.2 a i
    simpa [arrOf] using this

theorem loadPoint {n a : Nat} {i : Int} (h : ∀ k < n, K a k = .point) :
    g.PSim K K g.pt (Prog.loadArr n a i) (Prog.loadArr n a i) := by
  by_cases hi : 0 ≤ i ∧ i < n
  · unfold Prog.loadArr
    rw [if_pos hi]
    intro s s' H
    have := H.2 a i.toNat
    rw [h _ (by omega)] at this
    exact ⟨this, H⟩
  · unfold Prog.loadArr
    rw [if_neg hi]
    exact PSim.fail

theorem loadDir {n a : Nat} {i : Int} (h : ∀ k < n, K a k = .dir) :
    g.PSim K K g.vec (Prog.loadArr n a i) (Prog.loadArr n a i) := by
  by_cases hi : 0 ≤ i ∧ i < n
  · unfold Prog.loadArr
    rw [if_pos hi]
    intro s s' H
    have := H.2 a i.toNat
    rw [h _ (by omega)] at this
    exact ⟨this, H⟩
  · unfold Prog.loadArr
    rw [if_neg hi]
    exact PSim.fail

theorem loadNum {n a : Nat} {i : Int} (h : ∀ k < n, K a k = .num) :
    g.PSim K K id (Prog.loadNum n a i) (Prog.loadNum (F := ℝ) n a i) := by
  by_cases hi : 0 ≤ i ∧ i < n
  · unfold Prog.loadNum
    rw [if_pos hi]
    intro s s' H
    have := H.2 a i.toNat
    rw [h _ (by omega)] at this
    exact ⟨this, H⟩
  · unfold Prog.loadNum
    rw [if_neg hi]
    exact PSim.fail

/-- the kinds after element `i` of array `a` was written -/
def put (K : Nat → Nat → Kind) (a i : Nat) (k : Kind) : Nat → Nat → Kind := fun b j => if b = a ∧ j = i then k else K b j

theorem storeArr_mem {a i : Nat} {p p' : Vec3 ℝ} {k : Kind} (h : k = .any ∨ k = .point ∧ p' = g.pt p ∨ k = .dir ∧ p' = g.vec p) :
    g.PSim K (put K a i k) id (Prog.storeArr a i p) (Prog.storeArr a i p') := by
  intro s s' H
  refine ⟨rfl, fun u => ?_, fun b j => ?_⟩
  · simpa [posOf] using H.1 u
  · by_cases hb : b = a ∧ j = i
    · obtain ⟨rfl, rfl⟩ := hb
      rcases h with rfl | ⟨rfl, rfl⟩ | ⟨rfl, rfl⟩ <;> simp [put, arrOf]
    · have := H.2 b j
      have hne : ∀ c d, (Loc.arr b j c = Loc.arr a i d) = False := by
        intro c d
        simp only [Loc.arr.injEq, eq_iff_iff, iff_false]
        intro hh
        exact hb ⟨hh.1, hh.2.1⟩
      simp only [put, hb, if_false, arrOf, hne]
      simpa [arrOf] using this

theorem storePoint {a i : Nat} {p : Vec3 ℝ} :
    g.PSim K (put K a i .point) id (Prog.storeArr a i p) (Prog.storeArr a i (g.pt p)) := storeArr_mem (.inr (.inl ⟨rfl, rfl⟩))

theorem storeDir {a i : Nat} {p : Vec3 ℝ} :
    g.PSim K (put K a i .dir) id (Prog.storeArr a i p) (Prog.storeArr a i (g.vec p)) := storeArr_mem (.inr (.inr ⟨rfl, rfl⟩))

theorem storeNum {a i : Nat} {x : ℝ} :
    g.PSim K (put K a i .num) id (Prog.storeNum a i x) (Prog.storeNum a i x) := by
  intro s s' H
  refine ⟨rfl, fun u => ?_, fun b j => ?_⟩
  · simpa [posOf] using H.1 u
  · by_cases hb : b = a ∧ j = i
    · obtain ⟨rfl, rfl⟩ := hb
      simp [put]
    · have := H.2 b j
      have hne : ∀ c d, (Loc.arr b j c = Loc.arr a i d) = False := by
        intro c d
        simp only [Loc.arr.injEq, eq_iff_iff, iff_false]
        intro hh
        exact hb ⟨hh.1, hh.2.1⟩
      simp only [put, hb, if_false, arrOf, hne]
      simpa [arrOf] using this

/-- less may be known -/
theorem weaken {φ : α → β} {p : Prog Loc ℝ α} {p' : Prog Loc ℝ β} (h : g.PSim K K' φ p p') (w : ∀ a i, K'' a i = .any ∨ K'' a i = K' a i) :
    g.PSim K K'' φ p p' := by
  intro s s' H
  have := h s s' H
  rcases hx : p.exec s with e | ⟨a, t⟩ <;> rcases hy : p'.exec s' with e' | ⟨b, t'⟩ <;> rw [hx, hy] at this
  · exact this
  · exact this.elim
  · exact this.elim
  · refine ⟨this.1, this.2.1, fun a i => ?_⟩
    have h2 := this.2.2 a i
    rcases w a i with e | e <;> rw [e]
    · trivial
    · exact h2

end PSim

/-- outcomes of two loops -/
def LoopSim (g : Motion) (K : Nat → Nat → Kind) : Except Err (Loc → ℝ) → Except Err (Loc → ℝ) → Prop
  | .ok t, .ok t' => g.MemSim K t t'
  | .error e, .error e' => e = e'
  | _, _ => False

theorem serial_sim {b b' : Nat → Prog Loc ℝ Unit} (K : Nat → Nat → Nat → Kind) (h : ∀ i, g.PSim (K i) (K (i + 1)) id (b i) (b' i)) :
    ∀ n i s s', g.MemSim (K i) s s' → g.LoopSim (K (i + n)) (serial b (List.range' i n) s) (serial b' (List.range' i n) s') := by
  intro n
  induction n with
  | zero => intro i s s' H; exact H
  | succ n ih =>
    intro i s s' H
    have := h i s s' H
    rw [List.range'_succ]
    unfold serial
    rcases hx : (b i).exec s with e | ⟨a, t⟩ <;> rcases hy : (b' i).exec s' with e' | ⟨c, t'⟩ <;> rw [hx, hy] at this
    · exact this
    · exact this.elim
    · exact this.elim
    · have := ih (i + 1) t t' this.2
      rwa [show i + 1 + n = i + (n + 1) by omega] at this

theorem serial_range {b b' : Nat → Prog Loc ℝ Unit} (K : Nat → Nat → Nat → Kind) (h : ∀ i, g.PSim (K i) (K (i + 1)) id (b i) (b' i))
    (n : Nat) {s s' : Loc → ℝ} (H : g.MemSim (K 0) s s') :
    g.LoopSim (K n) (serial b (List.range n) s) (serial b' (List.range n) s') := by
  have := serial_sim K h n 0 s s' H
  rwa [Nat.zero_add, ← List.range_eq_range'] at this

theorem posOf_mem (m : Mesh ℝ) (v : Nat) : posOf m.mem v = m.vPos v := rfl

theorem mem_sim (m : Mesh ℝ) {K : Nat → Nat → Kind} (h : ∀ a i, K a i ≠ .point) : g.MemSim K m.mem (g.mesh m).mem := by
  refine ⟨fun v => rfl, fun a i => ?_⟩
  have hz : ∀ m : Mesh ℝ, arrOf m.mem a i = Vec3.zero := fun _ => rfl
  match hk : K a i with
  | .any => trivial
  | .point => exact (h a i hk).elim
  | .dir => show arrOf _ a i = g.vec (arrOf _ a i); rw [hz, hz, vec_zero]
  | .num => rfl

theorem store_sim {m : Mesh ℝ} {s s' : Loc → ℝ} {K : Nat → Nat → Kind} (H : g.MemSim K s s') : (g.mesh m).store s' = g.mesh (m.store s) := by
  have : posOf s' = fun v => g.pt (posOf s v) := funext H.1
  simp only [Mesh.store, mesh, this]

/-! ### Smoothing -/

theorem div_shift (c : Vec3 ℝ) (s : ℝ) : ((g.vec c).add (g.t.smul s)).div? s = (c.div? s).map g.pt := by
  unfold Vec3.div?
  by_cases hs : Scalar.eq s (Scalar.lit 0 1) = true
  · simp only [hs, if_true]; rfl
  · simp only [hs]
    have h0 : s ≠ 0 := by
      intro h; apply hs; rw [h, R_lit0]; simp [Scalar.eq]
    simp only [Bool.false_eq_true, if_false, Option.map_some, Option.some.injEq]
    have e : g.pt (c.divRaw s) = (g.vec (c.divRaw s)).add g.t := rfl
    rw [e, ← vec_divRaw]
    simp only [Vec3.divRaw, Vec3.add, Vec3.smul]
    refine Vec3.ext' ?_ ?_ ?_ <;> field_simp

theorem cotP_sim {K : Nat → Nat → Kind} {m : Mesh ℝ} {h : Nat} : g.PSim K K id (cotP m h) (cotP (g.mesh m) h) := by
  unfold cotP
  refine PSim.bindId (PSim.topoId Sim.cotVerts) (fun q => ?_)
  obtain ⟨v0, v1, v2, v3⟩ := q
  refine PSim.bind PSim.loadPos (fun p0 => PSim.bind PSim.loadPos (fun p1 => PSim.bind PSim.loadPos (fun p2 => PSim.bind PSim.loadPos (fun p3 => ?_))))
  rw [cotW_pt]
  exact PSim.pureId

theorem lapSum_sim {K : Nat → Nat → Kind} {m : Mesh ℝ} {cotan : Bool} (hs : List Nat) : ∀ (c : Vec3 ℝ) (s : ℝ),
    g.PSim K K (fun r => ((g.vec r.1).add (g.t.smul r.2), r.2)) (lapSum m cotan hs c s)
      (lapSum (g.mesh m) cotan hs ((g.vec c).add (g.t.smul s)) s) := by
  induction hs with
  | nil => intro c s; exact PSim.ret rfl
  | cons h hs ih =>
    intro c s
    unfold lapSum
    have step : ∀ w : ℝ, g.PSim K K (fun r => ((g.vec r.1).add (g.t.smul r.2), r.2))
        (do let d ← Prog.topo m (getDst h); let p ← Prog.loadPos m d; lapSum m cotan hs (c.add (Vec3.smul w p)) (s + w))
        (do let d ← Prog.topo (g.mesh m) (getDst h); let p ← Prog.loadPos (g.mesh m) d
            lapSum (g.mesh m) cotan hs (((g.vec c).add (g.t.smul s)).add (Vec3.smul w p)) (s + w)) := by
      intro w
      refine PSim.bindId (PSim.topoId Sim.getDst) (fun d => PSim.bind PSim.loadPos (fun p => ?_))
      have e : ((g.vec c).add (g.t.smul s)).add ((g.pt p).smul w) = (g.vec (c.add (p.smul w))).add (g.t.smul (s + w)) := by
        rw [← vec_add, ← vec_smul, show g.pt p = (g.vec p).add g.t from rfl]
        simp only [Vec3.add, Vec3.smul]
        refine Vec3.ext' ?_ ?_ ?_ <;> simp only <;> ring
      rw [e]
      exact ih _ _
    cases cotan
    · exact PSim.bindId PSim.pureId step
    · exact PSim.bindId cotP_sim step

/-- elements `0, …, n - 1` of array 0 are points -/
def points (n : Nat) : Nat → Nat → Kind := fun a i => if a = 0 ∧ i < n then .point else .any

theorem points_put (n : Nat) (a i : Nat) : points (n + 1) a i = .any ∨ points (n + 1) a i = PSim.put (points n) 0 n .point a i := by
  unfold points PSim.put
  by_cases h : a = 0
  · subst h
    by_cases h1 : i = n
    · subst h1; simp
    · by_cases h2 : i < n
      · right; simp [h1, h2, show i < n + 1 by omega]
      · left; simp [show ¬ i < n + 1 by omega]
  · left; simp [h]

theorem lapCent_sim {m : Mesh ℝ} {cotan : Bool} (i : Nat) :
    g.PSim (points i) (points (i + 1)) id (lapCent m cotan i) (lapCent (g.mesh m) cotan i) := by
  unfold lapCent
  refine PSim.bindId (PSim.topoId Sim.vertexAt) (fun v => PSim.bindId (PSim.topoId Sim.ringList) (fun hs => ?_))
  have h0 : (g.vec Vec3.zero).add (g.t.smul (Scalar.lit 0 1)) = Vec3.zero := by
    rw [vec_zero]
    simp only [Vec3.add, Vec3.zero, Vec3.smul, R_lit0]
    refine Vec3.ext' ?_ ?_ ?_ <;> simp
  have := lapSum_sim (g := g) (K := points i) (m := m) (cotan := cotan) hs Vec3.zero (Scalar.lit 0 1)
  rw [h0] at this
  refine PSim.bind this (fun r => PSim.bind (PSim.orThrow (div_shift _ _)) (fun c => ?_))
  exact PSim.storePoint.weaken (points_put i)

theorem blend_pt (eps : ℝ) (p q c : Vec3 ℝ) :
    Vec3.add ((g.pt p).smul (Scalar.lit 1 1 - eps)) (Vec3.smul eps ((g.pt q).add ((g.pt c).sub (g.pt q)))) =
      g.pt (Vec3.add (p.smul (Scalar.lit 1 1 - eps)) (Vec3.smul eps (q.add (c.sub q)))) := by
  rw [pt_sub, pt_add_vec]
  have : ∀ x, g.pt x = (g.vec x).add g.t := fun _ => rfl
  rw [this, this, this, ← vec_add g (Vec3.smul _ p), ← vec_smul, ← vec_smul]
  simp only [Vec3.add, Vec3.smul, R_lit1]
  refine Vec3.ext' ?_ ?_ ?_ <;> simp only <;> ring

theorem lapMove_sim {m : Mesh ℝ} {nv : Nat} {eps : ℝ} (i : Nat) :
    g.PSim (points nv) (points nv) id (lapMove m nv eps i) (lapMove (g.mesh m) nv eps i) := by
  unfold lapMove
  refine PSim.bindId (PSim.topoId Sim.vertexAt) (fun v => PSim.bindId (PSim.topoId Sim.isPinned) (fun b => PSim.ite PSim.pureId ?_))
  refine PSim.bind PSim.loadPos (fun p => PSim.bind (PSim.loadPoint (fun k hk => by simp [points, hk])) (fun c => ?_))
  simp only [blend_pt]
  exact PSim.storePos

theorem sweep_sim {b1 b2 : Mesh ℝ → Nat → Nat → Prog Loc ℝ Unit}
    (h1 : ∀ m nv i, g.PSim (points i) (points (i + 1)) id (b1 m nv i) (b1 (g.mesh m) nv i))
    (h2 : ∀ m nv i, g.PSim (points nv) (points nv) id (b2 m nv i) (b2 (g.mesh m) nv i)) : g.Same (sweep b1 b2) := by
  intro m
  unfold sweep
  have ev : (g.mesh m).vs.length = m.vs.length := rfl
  have H0 : g.MemSim (points 0) m.mem (g.mesh m).mem := mem_sim m (fun a i => by simp [points])
  have H1 := serial_range points (h1 m m.vs.length) m.vs.length H0
  simp only [ev]
  rcases hx : serial (b1 m m.vs.length) (List.range m.vs.length) m.mem with e | s1 <;>
    rcases hy : serial (b1 (g.mesh m) m.vs.length) (List.range m.vs.length) (g.mesh m).mem with e' | s1' <;> rw [hx, hy] at H1
  · have : e = e' := H1
    subst this; rfl
  · exact H1.elim
  · exact H1.elim
  · have H2 := serial_range (fun _ => points m.vs.length) (h2 m m.vs.length) m.vs.length (s := s1) (s' := s1') H1
    simp only
    rcases hx2 : serial (b2 m m.vs.length) (List.range m.vs.length) s1 with e | s2 <;>
      rcases hy2 : serial (b2 (g.mesh m) m.vs.length) (List.range m.vs.length) s1' with e' | s2' <;> rw [hx2, hy2] at H2
    · have : e = e' := H2
      subst this; rfl
    · exact H2.elim
    · exact H2.elim
    · show Out.ok () ((g.mesh m).store s2') = Out.ok () (g.mesh (m.store s2))
      rw [store_sim H2]

theorem Sim.lapSweep {eps : ℝ} {cotan : Bool} : g.Same (TinyMesh.lapSweep eps cotan) :=
  sweep_sim (fun _ _ i => lapCent_sim i) (fun _ _ i => lapMove_sim i)

theorem Sim.smoothLaplacian {eps : ℝ} {cotan : Bool} (n : Nat) : g.Same (TinyMesh.smoothLaplacian eps cotan n) := by
  induction n with
  | zero => exact Sim.pureId
  | succ n ih => exact Sim.bindId Sim.lapSweep (fun _ => ih)

theorem loadAll_sim {K : Nat → Nat → Kind} {m : Mesh ℝ} (vs : List Nat) :
    g.PSim K K (List.map g.pt) (loadAll m vs) (loadAll (g.mesh m) vs) := by
  induction vs with
  | nil => exact PSim.ret rfl
  | cons v vs ih =>
    unfold loadAll
    exact PSim.bind PSim.loadPos (fun p => PSim.bind ih (fun ps => PSim.ret rfl))

theorem foldl_shift (ps : List (Vec3 ℝ)) : ∀ (c : Vec3 ℝ) (s : ℝ), (ps.map g.pt).foldl Vec3.add ((g.vec c).add (g.t.smul s)) =
    (g.vec (ps.foldl Vec3.add c)).add (g.t.smul (s + ps.length)) := by
  induction ps with
  | nil => intro c s; simp
  | cons p ps ih =>
    intro c s
    have e : ((g.vec c).add (g.t.smul s)).add (g.pt p) = (g.vec (c.add p)).add (g.t.smul (s + 1)) := by
      rw [← vec_add, show g.pt p = (g.vec p).add g.t from rfl]
      simp only [Vec3.add, Vec3.smul]
      refine Vec3.ext' ?_ ?_ ?_ <;> simp only <;> ring
    simp only [List.map_cons, List.foldl_cons, e, ih, List.length_cons]
    congr 2
    push_cast
    ring

theorem mean_pt (ps : List (Vec3 ℝ)) (k : ℝ) (hk : k = ps.length) :
    Vec3.div? ((ps.map g.pt).foldl Vec3.add Vec3.zero) k = (Vec3.div? (ps.foldl Vec3.add Vec3.zero) k).map g.pt := by
  have h0 : (Vec3.zero : Vec3 ℝ) = (g.vec Vec3.zero).add (g.t.smul 0) := by
    rw [vec_zero]
    simp only [Vec3.add, Vec3.zero, Vec3.smul, R_lit0]
    refine Vec3.ext' ?_ ?_ ?_ <;> simp
  rw [show (ps.map g.pt).foldl Vec3.add Vec3.zero = (ps.map g.pt).foldl Vec3.add ((g.vec Vec3.zero).add (g.t.smul 0)) by rw [← h0], foldl_shift,
    zero_add, ← hk, div_shift]

theorem tauCent_sim {m : Mesh ℝ} (i : Nat) : g.PSim (points i) (points (i + 1)) id (tauCent m i) (tauCent (g.mesh m) i) := by
  unfold tauCent
  refine PSim.bindId (PSim.topoId Sim.vertexAt) (fun v => PSim.bindId (PSim.topoId Sim.ringVerts) (fun us => PSim.bind (loadAll_sim us) (fun ps => ?_)))
  refine PSim.bind (PSim.orThrow ?_) (fun c => PSim.storePoint.weaken (points_put i))
  rw [List.length_map]
  exact mean_pt ps _ (by rw [R_lit]; simp)

theorem tauMove_sim {m : Mesh ℝ} {nv : Nat} {eps : ℝ} (i : Nat) :
    g.PSim (points nv) (points nv) id (tauMove m nv eps i) (tauMove (g.mesh m) nv eps i) := by
  unfold tauMove
  refine PSim.bindId (PSim.topoId Sim.vertexAt) (fun v => PSim.bindId (PSim.topoId Sim.isPinned) (fun b => PSim.ite PSim.pureId ?_))
  refine PSim.bind PSim.loadPos (fun p => PSim.bind (PSim.loadPoint (fun k hk => by simp [points, hk])) (fun c => PSim.bind PSim.loadPos (fun q => ?_)))
  simp only [blend_pt]
  exact PSim.storePos

theorem Sim.tauSweep {eps : ℝ} : g.Same (TinyMesh.tauSweep eps) := sweep_sim (fun _ _ i => tauCent_sim i) (fun _ _ i => tauMove_sim i)

theorem Sim.tauLoop {a b : ℝ} (n : Nat) : ∀ it, g.Same (TinyMesh.tauLoop a b it n) := by
  induction n with
  | zero => intro it; exact Sim.pureId
  | succ n ih => intro it; exact Sim.bindId Sim.tauSweep (fun _ => ih _)

theorem Sim.smoothTaubin {a b : ℝ} {n : Nat} : g.Same (TinyMesh.smoothTaubin a b n) := by
  unfold TinyMesh.smoothTaubin
  exact Sim.ite (Sim.tauLoop _ _) Sim.fail

theorem Sim.smoothTaubinDefault : g.Same (TinyMesh.smoothTaubinDefault (F := ℝ)) := Sim.smoothTaubin

/-! ### Denoising -/

/-- the arrays of the denoising filters when `n` faces have their centroids: normals, centroids, areas, new normals -/
def faces (n : Nat) : Nat → Nat → Kind := fun a i =>
  if a = 0 then .dir else if a = 1 then (if i < n then .point else .any) else if a = 2 then .num else if a = 3 then .dir else .any

theorem faces_ne (a i : Nat) : faces 0 a i ≠ .point := by
  unfold faces; split_ifs <;> simp_all

theorem centroid_pt (a b c : Vec3 ℝ) : Vec3.div? (((g.pt a).add (g.pt b)).add (g.pt c)) (Scalar.lit 3 1) =
    (Vec3.div? ((a.add b).add c) (Scalar.lit 3 1)).map g.pt := by
  rw [← div_shift, ← vec_add, ← vec_add]
  have : ∀ x, g.pt x = (g.vec x).add g.t := fun _ => rfl
  rw [this, this, this]
  congr 1
  simp only [Vec3.add, Vec3.smul, R_lit]
  refine Vec3.ext' ?_ ?_ ?_ <;> simp only <;> push_cast <;> ring

theorem dnNormal_sim {m : Mesh ℝ} (i : Nat) : g.PSim (faces i) (faces (i + 1)) id (dnNormal m i) (dnNormal (g.mesh m) i) := by
  unfold dnNormal
  refine PSim.bindId (PSim.topoId Sim.faceAt) (fun f => PSim.bindId (PSim.topoId Sim.faceVerts) (fun vs => PSim.bind (loadAll_sim vs) (fun ps => ?_)))
  match ps with
  | [] => exact PSim.fail
  | [_] => exact PSim.fail
  | [_, _] => exact PSim.fail
  | _ :: _ :: _ :: _ :: _ => exact PSim.fail
  | [a, b, c] =>
    simp only [List.map_cons, List.map_nil, pt_sub, cross_vec, length_vec]
    refine PSim.bind (PSim.orThrow (vec_normalize g _)) (fun n => PSim.bindId PSim.storeDir (fun _ => ?_))
    refine PSim.bind (PSim.orThrow (centroid_pt a b c)) (fun q => PSim.bindId PSim.storePoint (fun _ => PSim.storeNum.weaken ?_))
    intro x j
    unfold PSim.put faces
    by_cases h0 : x = 0
    · right; subst h0; simp
    · by_cases h1 : x = 1
      · subst h1
        by_cases hj : j < i
        · right; simp [hj, show j < i + 1 by omega]
        · by_cases hj' : j = i
          · right; subst hj'; simp
          · left; simp [show ¬ j < i + 1 by omega]
      · right
        by_cases h2 : x = 2
        · subst h2; simp
        · simp [h0, h1, h2]

theorem dnSum_sim {m : Mesh ℝ} {nf : Nat} {bil : Bool} {σ σn : ℝ} {i : Nat} (gs : List Nat) : ∀ s : Vec3 ℝ,
    g.PSim (faces nf) (faces nf) g.vec (dnSum m nf bil σ σn i gs s) (dnSum (g.mesh m) nf bil σ σn i gs (g.vec s)) := by
  induction gs with
  | nil => intro s; exact PSim.ret rfl
  | cons x gs ih =>
    intro s
    unfold dnSum
    refine PSim.bindId (PSim.topoId Sim.getFIdx) (fun j => ?_)
    refine PSim.bind (PSim.loadPoint (fun k hk => by simp [faces, hk])) (fun ci => PSim.bind (PSim.loadPoint (fun k hk => by simp [faces, hk])) (fun cj => ?_))
    refine PSim.bindId (PSim.loadNum (fun k hk => by simp [faces])) (fun a => PSim.bind (PSim.loadDir (fun k hk => by simp [faces])) (fun nj => ?_))
    cases bil
    · refine PSim.bind (φ := g.vec) (PSim.ret rfl) (fun ni => ?_)
      simp only [pt_sub, vec_sub, length_vec, vec_smul, vec_add]
      exact ih _
    · refine PSim.bind (PSim.loadDir (fun k hk => by simp [faces])) (fun ni => ?_)
      simp only [pt_sub, vec_sub, length_vec, vec_smul, vec_add]
      exact ih _

theorem dnFilter_sim {m : Mesh ℝ} {nf : Nat} {bil : Bool} {σ σn : ℝ} (i : Nat) :
    g.PSim (faces nf) (faces nf) id (dnFilter m nf bil σ σn i) (dnFilter (g.mesh m) nf bil σ σn i) := by
  unfold dnFilter
  refine PSim.bindId (PSim.topoId Sim.faceAt) (fun f => PSim.bindId (PSim.topoId Sim.faceFaces) (fun gs => ?_))
  have := dnSum_sim (g := g) (m := m) (nf := nf) (bil := bil) (σ := σ) (σn := σn) (i := i) gs Vec3.zero
  rw [vec_zero] at this
  refine PSim.bind this (fun s => ?_)
  simp only [length_vec]
  refine PSim.ite PSim.pureId (PSim.bind (PSim.orThrow (vec_div g _ _)) (fun n => PSim.storeDir.weaken ?_))
  intro x j
  right
  unfold PSim.put faces
  by_cases h : x = 3 ∧ j = i
  · simp [h]
  · simp [h]

theorem dnIncr_sim {m : Mesh ℝ} {nf v : Nat} (gs : List Nat) : ∀ (s : ℝ) (c : Vec3 ℝ),
    g.PSim (faces nf) (faces nf) (Prod.map id g.vec) (dnIncr m nf v gs s c) (dnIncr (g.mesh m) nf v gs s (g.vec c)) := by
  induction gs with
  | nil => intro s c; exact PSim.ret rfl
  | cons x gs ih =>
    intro s c
    unfold dnIncr
    refine PSim.bindId (PSim.topoId Sim.getFIdx) (fun j => ?_)
    refine PSim.bindId (PSim.loadNum (fun k hk => by simp [faces])) (fun a => PSim.bind (PSim.loadDir (fun k hk => by simp [faces])) (fun n => ?_))
    refine PSim.bind (PSim.loadPoint (fun k hk => by simp [faces, hk])) (fun cj => PSim.bind PSim.loadPos (fun p => ?_))
    simp only [pt_sub, dot_vec, vec_smul, vec_add]
    exact ih _ _

theorem dnMove_sim {m : Mesh ℝ} {nf : Nat} (i : Nat) : g.PSim (faces nf) (faces nf) id (dnMove m nf i) (dnMove (g.mesh m) nf i) := by
  unfold dnMove
  refine PSim.bindId (PSim.topoId Sim.vertexAt) (fun v => PSim.bindId (PSim.topoId Sim.vertFaces) (fun gs => ?_))
  have := dnIncr_sim (g := g) (m := m) (nf := nf) (v := v) gs (Scalar.lit 0 1) Vec3.zero
  rw [vec_zero] at this
  refine PSim.bind this (fun r => ?_)
  obtain ⟨s, c⟩ := r
  refine PSim.bind (PSim.orThrow (vec_div g s c)) (fun c => PSim.bind PSim.loadPos (fun p => ?_))
  rw [pt_add_vec]
  exact PSim.storePos

theorem Sim.dnSweep {bil : Bool} {σ σn : ℝ} : g.Same (TinyMesh.dnSweep bil σ σn) := by
  intro m
  unfold TinyMesh.dnSweep
  have H0 : g.MemSim (faces 0) m.mem (g.mesh m).mem := mem_sim m faces_ne
  have H1 := serial_range faces (fun i => dnNormal_sim (g := g) (m := m) i) m.fs.length H0
  have ev : (g.mesh m).vs.length = m.vs.length := rfl
  have ef : (g.mesh m).fs.length = m.fs.length := rfl
  simp only [ev, ef]
  rcases hx : serial (dnNormal m) (List.range m.fs.length) m.mem with e | s1 <;>
    rcases hy : serial (dnNormal (g.mesh m)) (List.range m.fs.length) (g.mesh m).mem with e' | s1' <;> rw [hx, hy] at H1
  · have : e = e' := H1
    subst this; rfl
  · exact H1.elim
  · exact H1.elim
  · have H2 := serial_range (fun _ => faces m.fs.length) (fun i => dnFilter_sim (g := g) (m := m) (bil := bil) (σ := σ) (σn := σn) i) m.fs.length
      (s := s1) (s' := s1') H1
    simp only
    rcases hx2 : serial (dnFilter m m.fs.length bil σ σn) (List.range m.fs.length) s1 with e | s2 <;>
      rcases hy2 : serial (dnFilter (g.mesh m) m.fs.length bil σ σn) (List.range m.fs.length) s1' with e' | s2' <;> rw [hx2, hy2] at H2
    · have : e = e' := H2
      subst this; rfl
    · exact H2.elim
    · exact H2.elim
    · have H3 := serial_range (fun _ => faces m.fs.length) (fun i => dnMove_sim (g := g) (m := m) i) m.vs.length (s := s2) (s' := s2') H2
      simp only
      rcases hx3 : serial (dnMove m m.fs.length) (List.range m.vs.length) s2 with e | s3 <;>
        rcases hy3 : serial (dnMove (g.mesh m) m.fs.length) (List.range m.vs.length) s2' with e' | s3' <;> rw [hx3, hy3] at H3
      · have : e = e' := H3
        subst this; rfl
      · exact H3.elim
      · exact H3.elim
      · show Out.ok () ((g.mesh m).store s3') = Out.ok () (g.mesh (m.store s3))
        rw [store_sim H3]

theorem Sim.dnLoop {bil : Bool} {σ σn : ℝ} (n : Nat) : g.Same (TinyMesh.dnLoop bil σ σn n) := by
  induction n with
  | zero => exact Sim.pureId
  | succ n ih => exact Sim.bindId Sim.smoothTaubinDefault (fun _ => Sim.bindId Sim.dnSweep (fun _ => ih))

theorem Sim.denoiseNormalGaussian {σ : ℝ} {n : Nat} : g.Same (TinyMesh.denoiseNormalGaussian σ n) :=
  Sim.bindId Sim.meanEdgeLength (fun _ => Sim.dnLoop n)

theorem Sim.denoiseNormalBilateral {σ σn : ℝ} {n : Nat} : g.Same (TinyMesh.denoiseNormalBilateral σ σn n) :=
  Sim.bindId Sim.meanEdgeLength (fun _ => Sim.dnLoop n)

/-! ### Remeshing -/

theorem Sim.lengthSum (l : List Nat) : ∀ s : ℝ, g.Same (TinyMesh.lengthSum l s) := by
  induction l with
  | nil => intro s; exact Sim.pureId
  | cons h l ih => intro s; exact Sim.bindId Sim.heLength (fun _ => ih _)

theorem Sim.avgLength : g.Same (TinyMesh.avgLength (F := ℝ)) :=
  Sim.bindId (Sim.read fun _ => rfl) (fun _ => Sim.bindId (Sim.lengthSum _ _) (fun _ => Sim.pureId))

theorem Sim.lockLoop {keep : ℝ} (l : List Nat) : g.Same (TinyMesh.lockLoop keep l) := by
  induction l with
  | nil => exact Sim.pureId
  | cons v l ih =>
    unfold TinyMesh.lockLoop
    refine Sim.bindId Sim.ringVerts (fun ns => Sim.bindPts (Sim.getPosList _) (fun ps => Sim.bindPt Sim.getPos (fun p => ?_)))
    rw [minDihedral_pt]
    exact Sim.ite (Sim.bindId Sim.setLock (fun _ => ih)) ih

theorem Sim.lockFeatures {keep : ℝ} : g.Same (TinyMesh.lockFeatures keep) := Sim.bindId (Sim.read fun _ => rfl) (fun _ => Sim.lockLoop _)

theorem Sim.splitOne {lim : ℝ} {i : Nat} : g.Same (TinyMesh.splitOne lim i) := by
  unfold TinyMesh.splitOne
  refine Sim.bindId (Sim.read fun _ => rfl) (fun n => Sim.ite ?_ Sim.pureId)
  refine Sim.bindId Sim.halfedgeAt (fun h => Sim.bindId Sim.getSrc (fun a => Sim.bindPt Sim.getPos (fun p => Sim.bindId Sim.getDst (fun b => Sim.bindPt Sim.getPos (fun q => ?_)))))
  rw [pt_sub, length_vec]
  exact Sim.ite (Sim.bindId Sim.splitHE (fun _ => Sim.pureId)) Sim.pureId

theorem Sim.noLongEdge {a b : Nat} {lim : ℝ} : g.Same (TinyMesh.noLongEdge a b lim) := by
  unfold TinyMesh.noLongEdge
  refine Sim.bindId Sim.getVHe (fun h => Sim.circId (fun _ => Sim.ringStep) (fun x _ => ?_))
  refine Sim.bindPt Sim.getPos (fun p => Sim.bindId Sim.getDst (fun d => Sim.bindPt Sim.getPos (fun q => ?_)))
  rw [pt_sub, length_vec]
  exact Sim.pureId

theorem Sim.collapseOne {lo lim : ℝ} {i : Nat} : g.Same (TinyMesh.collapseOne lo lim i) := by
  unfold TinyMesh.collapseOne
  refine Sim.bindId (Sim.read fun _ => rfl) (fun n => Sim.ite ?_ Sim.pureId)
  refine Sim.bindId Sim.halfedgeAt (fun h => Sim.bindId Sim.getFace (fun f => Sim.bindId Sim.fIsLocked (fun l1 => Sim.ite Sim.pureId ?_)))
  refine Sim.bindId Sim.getRev (fun r => Sim.bindId Sim.getFace (fun f => Sim.bindId Sim.fIsLocked (fun l1 => Sim.ite Sim.pureId ?_)))
  refine Sim.bindId Sim.getSrc (fun a => Sim.bindId Sim.getLock (fun l => Sim.ite Sim.pureId ?_))
  refine Sim.bindId Sim.getDst (fun b => Sim.bindId Sim.getLock (fun l => Sim.ite Sim.pureId ?_))
  refine Sim.bindPt Sim.getPos (fun p => Sim.bindPt Sim.getPos (fun q => ?_))
  rw [pt_sub, length_vec]
  refine Sim.ite (Sim.bindId Sim.noLongEdge (fun ok => Sim.ite (Sim.bindId Sim.collapseHE (fun _ => Sim.pureId)) Sim.pureId)) Sim.pureId

theorem Sim.valence {v : Nat} : g.Same (TinyMesh.valence (F := ℝ) v) := by
  unfold TinyMesh.valence
  exact Sim.bindId Sim.vIsBoundary (fun _ => Sim.pureId)

theorem Sim.flipOne {i : Nat} : g.Same (TinyMesh.flipOne (F := ℝ) i) := by
  unfold TinyMesh.flipOne
  refine Sim.bindId Sim.halfedgeAt (fun h => Sim.bindId Sim.getFace (fun f => Sim.bindId Sim.fIsBoundary (fun l1 => Sim.ite Sim.pureId ?_)))
  refine Sim.bindId Sim.getRev (fun r => Sim.bindId Sim.getFace (fun f => Sim.bindId Sim.fIsBoundary (fun l1 => Sim.ite Sim.pureId ?_)))
  refine Sim.bindId Sim.fIsLocked (fun l => Sim.ite Sim.pureId (Sim.bindId Sim.fIsLocked (fun l => Sim.ite Sim.pureId ?_)))
  refine Sim.bindId Sim.getSrc (fun v0 => Sim.bindId Sim.getDst (fun v1 => Sim.bindId Sim.getNext (fun n => Sim.bindId Sim.getDst (fun v2 => ?_))))
  refine Sim.bindId Sim.getNext (fun n => Sim.bindId Sim.getDst (fun v3 => ?_))
  refine Sim.bindId Sim.getLock (fun l => Sim.ite Sim.pureId (Sim.bindId Sim.getLock (fun l => Sim.ite Sim.pureId ?_)))
  refine Sim.bindId Sim.degree (fun _ => Sim.bindId Sim.degree (fun _ => Sim.bindId Sim.degree (fun _ => Sim.bindId Sim.degree (fun _ => ?_))))
  refine Sim.bindId Sim.valence (fun _ => Sim.bindId Sim.valence (fun _ => Sim.bindId Sim.valence (fun _ => Sim.bindId Sim.valence (fun _ => ?_))))
  exact Sim.ite (Sim.bindId Sim.flipHE (fun _ => Sim.pureId)) Sim.pureId

theorem Sim.forAll {b : Nat → M ℝ Unit} (h : ∀ i, g.Same (b i)) (l : List Nat) : g.Same (TinyMesh.forAll b l) := by
  induction l with
  | nil => exact Sim.pureId
  | cons i l ih => exact Sim.bindId (h i) (fun _ => ih)

theorem Sim.forIdx {b : Nat → M ℝ Unit} (h : ∀ i, g.Same (b i)) (fuel : Nat) : ∀ i, g.Same (TinyMesh.forIdx b fuel i) := by
  induction fuel with
  | zero => intro i; exact Sim.fail
  | succ n ih =>
    intro i
    exact Sim.bindId (Sim.read fun _ => rfl) (fun n => Sim.ite (Sim.bindId (h i) (fun _ => ih _)) Sim.pureId)

theorem Sim.forHalfedges {b : Nat → M ℝ Unit} (h : ∀ i, g.Same (b i)) : g.Same (TinyMesh.forHalfedges b) :=
  Sim.bindId (Sim.read fun _ => rfl) (fun _ => Sim.forIdx h _ _)

theorem Sim.remeshRound {lo lim : ℝ} {s1 s2 : Nat → List Nat} : g.Same (TinyMesh.remeshRound lo lim s1 s2) := by
  unfold TinyMesh.remeshRound
  refine Sim.bindId (Sim.read fun _ => rfl) (fun n => Sim.bindId (Sim.forAll (fun _ => Sim.splitOne) _) (fun _ => Sim.bindId Sim.verify (fun _ => ?_)))
  refine Sim.bindId (Sim.read fun _ => rfl) (fun n => Sim.bindId (Sim.forAll (fun _ => Sim.collapseOne) _) (fun _ => ?_))
  exact Sim.bindId (Sim.forHalfedges (fun _ => Sim.flipOne)) (fun _ => Sim.smoothTaubinDefault)

theorem Sim.remeshLoop {lo lim : ℝ} {sh : Nat → Bool → Nat → List Nat} (n : Nat) : ∀ k, g.Same (TinyMesh.remeshLoop lo lim sh k n) := by
  induction n with
  | zero => intro k; exact Sim.pureId
  | succ n ih => intro k; exact Sim.bindId Sim.remeshRound (fun _ => ih _)

theorem Sim.remesh {sh : Nat → Bool → Nat → List Nat} {short long keep : ℝ} {n : Nat} : g.Same (TinyMesh.remesh sh short long keep n) := by
  unfold TinyMesh.remesh
  refine Sim.bindId Sim.verify (fun ok => Sim.bindId Sim.assert (fun _ => Sim.bindId Sim.avgLength (fun avg => ?_)))
  exact Sim.bindId Sim.lockFeatures (fun _ => Sim.remeshLoop _ _)

end Motion
end TinyMesh
