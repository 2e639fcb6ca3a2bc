import Verif.Proof.CtxB
import Verif.Proof.SettleG
/-
The new positions of the targets.
-/
namespace TinyMesh
open Orbit
variable {m : Mesh XR} {p : Nat → E3}

/-! ### Votes -/

theorem patchWeight_fin (d : ℝ) (x : E3) (h : 0 ≤ d) : patchWeight (XR.fin d) = XR.fin (Vote.weight ⟨x, d⟩) := by
  unfold patchWeight Vote.weight
  have e : (Scalar.lit 1 (10 ^ 12) : XR) = .fin (1 / 10 ^ 12) := by rw [X_lit_fin]; norm_num
  have o : (Scalar.lit 1 1 : XR) = .fin 1 := by rw [X_lit_fin]; norm_num
  have hp : d * d * d * d * d + 1 / 10 ^ 12 ≠ 0 := by positivity
  rw [X_mul, X_mul, X_mul, X_mul, e, o, X_add, X_div _ hp]
  congr 2
  ring

theorem Vote.weight_pos {x : Vote} (h : 0 ≤ x.dis) : 0 < x.weight := by
  unfold Vote.weight
  have : 0 ≤ x.dis ^ 5 := by positivity
  positivity

theorem voteLoop_ok {x : Vec3 XR} {g : Target XR → Vote} : ∀ (ts : List (Target XR)) (a : Vec3 XR) (y : E3) (s : ℝ), a.Is y →
    (∀ t ∈ ts, 0 ≤ (g t).dis ∧ t.dis = .fin (g t).dis ∧ ∃ c, bvhClosest t.bvh x = .ok c ∧ c.Is (g t).point) →
    ∃ b, voteLoop x ts (a, .fin s) m = .ok (b, .fin (s + ((ts.map g).map Vote.weight).sum)) m ∧
      b.Is (y + ((ts.map g).map fun v => v.weight • v.point).sum)
  | [], a, y, s, ha, _ => ⟨a, by simp [voteLoop], by simpa using ha⟩
  | t :: ts, a, y, s, ha, H => by
    obtain ⟨h0, hd, c, hc, ic⟩ := H t (by simp)
    have hw := patchWeight_fin (g t).dis (g t).point h0
    obtain ⟨b, e, ib⟩ := voteLoop_ok ts _ _ (s + (g t).weight) (ha.add (ic.smul (g t).weight)) fun u hu => H u (by simp [hu])
    refine ⟨b, ?_, ?_⟩
    · rw [voteLoop, hc, bind_apply]
      simp only [liftE, pure_apply]
      rw [hd, hw, X_add, List.map_cons, List.map_cons, List.sum_cons, ← add_assoc]
      exact e
    · rw [List.map_cons, List.map_cons, List.sum_cons, ← add_assoc]
      exact ib

/-- what the targets say about the vertex `u` -/
def votesFor (m : Mesh XR) (g : Target XR → Nat → Vote) (ts : List (Target XR)) (u : Nat) : List Vote :=
  (ts.filter fun t => t.patch.ids.contains (m.vIdx u).toNat).map fun t => g t u

theorem sum_pos_of {l : List ℝ} (h : ∀ x ∈ l, 0 < x) (n : l ≠ []) : 0 < l.sum := by
  cases l with
  | nil => exact absurd rfl n
  | cons a l =>
    rw [List.sum_cons]
    have h1 := h a (by simp)
    have : 0 ≤ l.sum := List.sum_nonneg fun x hx => (h x (by simp [hx])).le
    linarith

theorem voteOne_ok (w : m.WF) (A : m.AtE p) {ts : List (Target XR)} {g : Target XR → Nat → Vote} {k u : Nat} (hu : m.vs[k]? = some u)
    (H : ∀ t ∈ ts, k ∈ t.patch.ids → 0 ≤ (g t u).dis ∧ t.dis = .fin (g t u).dis ∧ ∃ c, bvhClosest t.bvh (m.vPos u) = .ok c ∧ c.Is (g t u).point)
    (ne : ∃ t ∈ ts, k ∈ t.patch.ids) (s : (Nat → Vec3 XR) × (Nat → Vec3 XR)) :
    ∃ x y, voteOne ts k s m = .ok (putAt s.1 k x, putAt s.2 k y) m ∧
      (m.vLock u = true → y.Is (p u - voteMean (votesFor m g ts u))) ∧ (m.vLock u = false → x.Is (voteMean (votesFor m g ts u))) := by
  have a := w.vDense.alive_at hu
  have hi : (m.vIdx u).toNat = k := by rw [w.vDense.idx_of hu]; rfl
  obtain ⟨b, e, ib⟩ := voteLoop_ok (m := m) (x := m.vPos u) (g := fun t => g t u) (ts.filter fun t => t.patch.ids.contains k) Vec3.zero 0 0 Vec3.Is.zero (by
    intro t ht
    rw [List.mem_filter] at ht
    exact H t ht.1 (List.contains_iff_mem.1 ht.2))
  have eV : (ts.filter fun t => t.patch.ids.contains k).map (fun t => g t u) = votesFor m g ts u := by rw [votesFor, hi]
  rw [eV, zero_add] at e ib
  have hpos : ((votesFor m g ts u).map Vote.weight).sum ≠ 0 := by
    refine (sum_pos_of ?_ ?_).ne'
    · intro z hz
      obtain ⟨x, hx, rfl⟩ := List.mem_map.1 hz
      obtain ⟨t, ht, rfl⟩ := List.mem_map.1 hx
      rw [List.mem_filter, hi] at ht
      exact Vote.weight_pos (H t ht.1 (List.contains_iff_mem.1 ht.2)).1
    · obtain ⟨t, ht, hk⟩ := ne
      intro h
      have : (g t u).weight ∈ (votesFor m g ts u).map Vote.weight :=
        List.mem_map_of_mem (List.mem_map_of_mem (List.mem_filter.2 ⟨ht, by rw [hi]; exact List.contains_iff_mem.2 hk⟩))
      rw [h] at this
      exact absurd this (List.not_mem_nil)
  obtain ⟨q, eq, iq⟩ := ib.div hpos
  have run : voteOne ts k s m = .ok (if m.vLock u then (putAt s.1 k Vec3.zero, putAt s.2 k ((m.vPos u).sub q)) else (putAt s.1 k q, putAt s.2 k Vec3.zero)) m := by
    unfold voteOne
    rw [bind_apply, vertexAt_run hu]
    dsimp only
    rw [bind_apply, getPos_ok a]
    dsimp only
    rw [bind_apply, lit_zero, e]
    dsimp only
    rw [bind_apply, eq]
    simp only [orThrowM, pure_apply]
    rw [bind_apply, getLock_ok a]
    rfl
  cases hl : m.vLock u with
  | true =>
    rw [hl, if_pos rfl] at run
    exact ⟨_, _, run, fun _ => (A u a).sub iq, fun h => (nomatch h)⟩
  | false =>
    rw [hl, if_neg (by simp)] at run
    exact ⟨_, _, run, fun h => (nomatch h), fun _ => iq⟩

theorem mem_assigned {ts : List (Target XR)} {k : Nat} : k ∈ assigned ts ↔ ∃ t ∈ ts, k ∈ t.patch.ids := by
  have key : ∀ (ts : List (Target XR)) (l : List Nat),
      k ∈ ts.foldl (fun l t => t.patch.ids.foldl (fun l k => if l.contains k then l else l ++ [k]) l) l ↔ k ∈ l ∨ ∃ t ∈ ts, k ∈ t.patch.ids := by
    intro ts
    induction ts with
    | nil => intro l; simp
    | cons t ts ih =>
      intro l
      rw [List.foldl_cons, ih]
      have := mem_foldl_addTo (fun x : Nat => x) t.patch.ids l k
      unfold addTo at this
      rw [this]
      simp only [exists_eq_right, List.mem_cons, exists_eq_or_imp, or_assoc]
  rw [assigned, key]
  simp

theorem votes_ok (w : m.WF) (A : m.AtE p) {ts : List (Target XR)} {g : Target XR → Nat → Vote}
    (H : ∀ t ∈ ts, ∀ k ∈ t.patch.ids, ∃ u, m.vs[k]? = some u ∧ 0 ≤ (g t u).dis ∧ t.dis = .fin (g t u).dis ∧
      ∃ c, bvhClosest t.bvh (m.vPos u) = .ok c ∧ c.Is (g t u).point) :
    ∃ pos off, votes ts m = .ok (pos, off) m ∧ (∀ k, (¬ ∃ t ∈ ts, k ∈ t.patch.ids) → off k = Vec3.zero) ∧ ∀ k u, m.vs[k]? = some u → (∃ t ∈ ts, k ∈ t.patch.ids) →
      (m.vLock u = true → (off k).Is (p u - voteMean (votesFor m g ts u))) ∧ (m.vLock u = false → (pos k).Is (voteMean (votesFor m g ts u))) := by
  have key : ∀ (ks ds : List Nat) (s : (Nat → Vec3 XR) × (Nat → Vec3 XR)), (∀ k ∈ ks, ∃ t ∈ ts, k ∈ t.patch.ids) →
      (∀ k ∈ ds, ∀ u, m.vs[k]? = some u → (m.vLock u = true → (s.2 k).Is (p u - voteMean (votesFor m g ts u))) ∧
        (m.vLock u = false → (s.1 k).Is (voteMean (votesFor m g ts u)))) →
      ∃ s', foldAll (voteOne ts) ks s m = .ok s' m ∧ (∀ k, k ∉ ks → s'.2 k = s.2 k) ∧ ∀ k ∈ ds ++ ks, ∀ u, m.vs[k]? = some u → (m.vLock u = true → (s'.2 k).Is (p u - voteMean (votesFor m g ts u))) ∧
        (m.vLock u = false → (s'.1 k).Is (voteMean (votesFor m g ts u))) := by
    intro ks
    induction ks with
    | nil => intro ds s _ h; exact ⟨s, rfl, fun _ _ => rfl, by simpa using h⟩
    | cons k ks ih =>
      intro ds s hk h
      obtain ⟨t0, ht0, hkt⟩ := hk k (by simp)
      obtain ⟨u, hu, -⟩ := H t0 ht0 k hkt
      obtain ⟨x, y, e, h1, h2⟩ := voteOne_ok w A hu (g := g) (ts := ts) (fun t ht hk' => by
        obtain ⟨u', hu', r⟩ := H t ht k hk'
        rw [hu] at hu'; cases hu'
        exact r) ⟨t0, ht0, hkt⟩ s
      obtain ⟨s', e', o', h'⟩ := ih (ds ++ [k]) (putAt s.1 k x, putAt s.2 k y) (fun j hj => hk j (by simp [hj])) (by
        intro j hj u' hu'
        simp only [putAt]
        by_cases c : j = k
        · subst c
          rw [hu] at hu'; cases hu'
          rw [if_pos rfl, if_pos rfl]
          exact ⟨h1, h2⟩
        · rw [if_neg c, if_neg c]
          exact h j (by simpa [c] using hj) u' hu')
      refine ⟨s', ?_, ?_, ?_⟩
      · unfold foldAll
        rw [bind_apply, e]
        exact e'
      · intro j hj
        rw [o' j fun c => hj (by simp [c])]
        exact if_neg fun c => hj (by simp [c])
      · rw [show ds ++ k :: ks = ds ++ [k] ++ ks by simp]; exact h'
  obtain ⟨s, e, o, h⟩ := key (assigned ts) [] (fun _ => Vec3.zero, fun _ => Vec3.zero) (fun k hk => mem_assigned.1 hk) (by simp)
  exact ⟨s.1, s.2, e, fun k hk => o k fun c => hk (mem_assigned.1 c), fun k u hu ht => h k (by simpa using mem_assigned.2 ht) u hu⟩

/-! ### The offsets -/

/-- the vertex with the given index -/
def Mesh.vtx {F : Type} (m : Mesh F) (i : Nat) : Nat := (m.vs[i]?).getD 0

theorem vtx_eq {F : Type} {m : Mesh F} {i v : Nat} (h : m.vs[i]? = some v) : m.vtx i = v := by rw [Mesh.vtx, h]; rfl

theorem idxOf_map {F : Type} {m : Mesh F} (w : m.WF) {l : List Nat} (hl : ∀ i ∈ l, i < m.vs.length) {j : Nat} (hj : j < m.vs.length) :
    (l.map m.vtx).idxOf (m.vtx j) = l.idxOf j ∧ (m.vtx j ∈ l.map m.vtx ↔ j ∈ l) := by
  have inj : ∀ i, i < m.vs.length → (m.vtx i = m.vtx j ↔ i = j) := by
    intro i hi
    rw [Mesh.vtx, Mesh.vtx, List.getElem?_eq_getElem hi, List.getElem?_eq_getElem hj, Option.getD_some, Option.getD_some]
    exact w.vDense.nodup.getElem_inj_iff
  constructor
  · induction l with
    | nil => rfl
    | cons x l ih =>
      have hx := inj x (hl x (by simp))
      rw [List.map_cons, List.idxOf_cons, List.idxOf_cons, ih fun i hi => hl i (by simp [hi])]
      by_cases c : x = j
      · rw [(hx.2 c), c]; simp
      · have c' : ¬ m.vtx x = m.vtx j := fun h => c (hx.1 h)
        rw [show (m.vtx x == m.vtx j) = false from beq_eq_false_iff_ne.2 c', show (x == j) = false from beq_eq_false_iff_ne.2 c]
  · rw [List.mem_map]
    constructor
    · rintro ⟨i, hi, e⟩; exact (inj i (hl i hi)).1 e ▸ hi
    · intro h; exact ⟨j, h, rfl⟩

/-- the system with vertices for indices -/
def OffSys.lines {F : Type} (m : Mesh F) (tgt : List Nat) (t : OffSys F) : LineSys F := ⟨tgt.map m.vtx, t.fixed.map m.vtx, t.tTgt, t.tSrc⟩

theorem intern_map {F : Type} {m : Mesh F} (w : m.WF) {l : List Nat} (hl : ∀ i ∈ l, i < m.vs.length) {j : Nat} (hj : j < m.vs.length) :
    intern (l.map m.vtx) (m.vtx j) = ((intern l j).1.map m.vtx, (intern l j).2) := by
  obtain ⟨h1, h2⟩ := idxOf_map w hl hj
  unfold intern
  by_cases c : j ∈ l
  · rw [if_pos (h2.2 c), if_pos c, h1]
  · rw [if_neg fun h => c (h2.1 h), if_neg c]; simp

theorem intern_lt {F : Type} {m : Mesh F} {l : List Nat} (hl : ∀ i ∈ l, i < m.vs.length) {j : Nat} (hj : j < m.vs.length) :
    ∀ i ∈ (intern l j).1, i < m.vs.length := by
  intro i hi
  rcases (intern_free l j).2.2.2.1 i hi with h | rfl
  · exact hl i h
  · exact hj

theorem offsetLoop_ok (w : m.WF) (A : m.AtE p) {tgt : List Nat} (ht : ∀ i ∈ tgt, i < m.vs.length)
    (lk : ∀ u, m.vAlive u = true → m.vLock u = !(tgt.map m.vtx).contains u) {i : Nat} (hi : i ∈ tgt) :
    ∀ (hs : List Nat) (s : ℝ) (t : OffSys XR) (K KF : List Keyed), (∀ h ∈ hs, m.hAlive h = true) →
    SysHolds m.vFresh (fun u => (tgt.map m.vtx).contains u) (t.lines m tgt) K KF → (∀ j ∈ t.fixed, j < m.vs.length) →
    ∃ t', offsetLoop tgt (tgt.idxOf i) hs (.fin s) t m = .ok (.fin (s + (hs.map (m.cotOf p)).sum), t') m ∧
      SysHolds m.vFresh (fun u => (tgt.map m.vtx).contains u) (t'.lines m tgt)
        (K ++ offV m p (fun u => (tgt.map m.vtx).contains u) (m.vtx i) hs) (KF ++ offV m p (fun u => !(tgt.map m.vtx).contains u) (m.vtx i) hs) ∧
      ∀ j ∈ t'.fixed, j < m.vs.length
  | [], s, t, K, KF, _, h, g => ⟨t, by simp [offsetLoop], by simpa [offV] using h, g⟩
  | x :: hs, s, t, K, KF, ha, h, g => by
    have a := ha x (by simp)
    have a1 := w.next_alive _ a
    have av := w.src_alive _ a1
    have lt := w.v_lt av
    obtain ⟨iu, ju⟩ := w.idx_toNat av
    have hlt := (List.getElem?_eq_some_iff.1 iu).1
    have hv := vtx_eq iu
    have row : (tgt.map m.vtx).idxOf (m.vtx i) = tgt.idxOf i := (idxOf_map w ht (ht i hi)).1
    have mi : m.vtx i ∈ tgt.map m.vtx := List.mem_map_of_mem hi
    set j := (m.vIdx (m.hSrc (m.hNext x))).toNat with hj
    set u := m.hSrc (m.hNext x) with hu
    have run : offsetLoop tgt (tgt.idxOf i) (x :: hs) (.fin s) t m =
        (if m.vLock u then
          offsetLoop tgt (tgt.idxOf i) hs (.fin s + .fin (m.cotOf p x)) { t with
            fixed := (intern t.fixed j).1
            tSrc := t.tSrc ++ [trip (tgt.idxOf i) (intern t.fixed j).2 (-.fin (m.cotOf p x))] } m
        else
          offsetLoop tgt (tgt.idxOf i) hs (.fin s + .fin (m.cotOf p x)) { t with
            tTgt := t.tTgt ++ [trip (tgt.idxOf i) ((tgt.idxOf? j).getD 0) (-.fin (m.cotOf p x))] } m) := by
      rw [offsetLoop, bind_apply, getDst_ok a a1]; dsimp only
      rw [bind_apply, cotWeight_exact w A a]; dsimp only
      rw [bind_apply, getLock_ok av]; dsimp only
      rw [bind_apply, getVIdx_ok av]; dsimp only
      split <;> rfl
    rw [run, X_add, X_neg]
    rw [offV_cons, offV_cons, List.map_cons, List.sum_cons, ← List.append_assoc, ← List.append_assoc, ← add_assoc]
    have lku := lk u av
    by_cases f : (tgt.map m.vtx).contains u = true
    · have f0 : m.vLock u = false := by rw [lku, f]; rfl
      have mu : u ∈ tgt.map m.vtx := List.contains_iff_mem.1 f
      have mj : j ∈ tgt := by rw [← hv] at mu; exact ((idxOf_map w ht hlt).2).1 mu
      have ej : (tgt.idxOf? j).getD 0 = (tgt.map m.vtx).idxOf u := by
        rw [← hv, (idxOf_map w ht hlt).1, List.idxOf_eq_getD_idxOf? ]
        rw [List.isSome_idxOf?.2 mj |> Option.eq_some_of_isSome]; rfl
      have g' := h.add (i := m.vtx i) (j := u) mi mu (-(m.cotOf p x))
      rw [if_neg (by rw [f0]; simp), if_pos f, if_neg (by rw [← hu, f]; simp), List.append_nil, ej]
      obtain ⟨t', e1, e2, e3⟩ := offsetLoop_ok w A ht lk hi hs (s + m.cotOf p x) { t with
            tTgt := t.tTgt ++ [trip (tgt.idxOf i) ((tgt.map m.vtx).idxOf u) (.fin (-(m.cotOf p x)))] } _ _ (fun y hy => ha y (by simp [hy]))
        (by rw [← row]; exact g') g
      exact ⟨t', e1, e2, e3⟩
    · have f' : (tgt.map m.vtx).contains u = false := by simpa using f
      have f0 : m.vLock u = true := by rw [lku, f']; rfl
      have im := intern_map w g hlt
      rw [hv] at im
      obtain ⟨h1, h2, h3, h4, -⟩ := intern_free (t.fixed.map m.vtx) u
      have g' := (h.touchF lt f').addF (i := m.vtx i) (j := u) mi h2 (-(m.cotOf p x))
      rw [if_pos f0, if_neg f, if_pos (by rw [← hu, f']; rfl), List.append_nil]
      have ec : (intern t.fixed j).2 = (intern (t.fixed.map m.vtx) u).1.idxOf u := by rw [← h3, im]
      obtain ⟨t', e1, e2, e3⟩ := offsetLoop_ok w A ht lk hi hs (s + m.cotOf p x) { t with
            fixed := (intern t.fixed j).1
            tSrc := t.tSrc ++ [trip (tgt.idxOf i) (intern t.fixed j).2 (.fin (-(m.cotOf p x)))] } _ _ (fun y hy => ha y (by simp [hy]))
        (by
          rw [ec, ← row]
          unfold OffSys.lines
          have : (intern t.fixed j).1.map m.vtx = (intern (t.fixed.map m.vtx) u).1 := by rw [im]
          dsimp only
          rw [this]
          exact g') (intern_lt g hlt)
      exact ⟨t', e1, e2, e3⟩

end TinyMesh
