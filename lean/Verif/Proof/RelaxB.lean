import Verif.Proof.RelaxA
import Verif.Proof.SmoothD
import Verif.Proof.OperB
import Verif.Spec.Relax
/-
Energy and limit of uniform smoothing.
-/
namespace TinyMesh
open Orbit
variable {F : Type} {m : Mesh F}

/-- the neighbours of a vertex -/
def nbs (m : Mesh F) (v : Nat) : List Nat := (m.hes.filter fun h => m.hSrc h == v).map fun h => m.hSrc (m.hNext h)

theorem nbs_length (m : Mesh F) (v : Nat) : (nbs m v).length = m.outDeg v := by
  rw [nbs, List.length_map, Mesh.outDeg, List.countP_eq_length_filter]

theorem mem_nbs (w : m.WF) {v u : Nat} : u ∈ nbs m v ↔ m.Joined v u := by
  rw [nbs, List.mem_map]
  constructor
  · rintro ⟨h, hh, rfl⟩
    rw [List.mem_filter, w.hDense.mem] at hh
    exact ⟨h, hh.1, by simpa using hh.2, rfl⟩
  · rintro ⟨h, a, e, rfl⟩
    exact ⟨h, List.mem_filter.2 ⟨(w.hDense.mem h).2 a, by simpa using e⟩, rfl⟩

theorem sum_coord (l : List Nat) (q : Nat → E3) (i : Fin 3) : (l.map q).sum i = (l.map fun u => q u i).sum := by
  induction l with
  | nil => simp
  | cons a l ih => simp [ih]

section
open Classical

theorem centroid_coord (m : Mesh F) (p : Nat → E3) (v : Nat) (i : Fin 3) :
    m.centroid p v i = ((nbs m v).length : ℝ)⁻¹ * ((nbs m v).map fun u => p u i).sum := by
  rw [nbs_length]
  unfold Mesh.centroid
  rw [PiLp.smul_apply, smul_eq_mul, sum_coord, nbs, List.map_map]
  rfl

theorem average_coord (m : Mesh F) (eps : ℝ) (p : Nat → E3) (v : Nat) (i : Fin 3) :
    m.average eps p v i = relax (nbs m) m.Pinned eps (fun u => p u i) v := by
  unfold Mesh.average relax
  split
  · rfl
  · rw [PiLp.add_apply, PiLp.smul_apply, PiLp.sub_apply, centroid_coord, smul_eq_mul]

theorem average_iter_coord (m : Mesh F) (eps : ℝ) (p : Nat → E3) (n : Nat) (v : Nat) (i : Fin 3) :
    (m.average eps)^[n] p v i = (relax (nbs m) m.Pinned eps)^[n] (fun u => p u i) v := by
  induction n generalizing v with
  | zero => rfl
  | succ n ih =>
    rw [Function.iterate_succ_apply', Function.iterate_succ_apply', average_coord]
    have : (fun u => (m.average eps)^[n] p u i) = (relax (nbs m) m.Pinned eps)^[n] fun u => p u i := funext ih
    rw [this]

/-- the vertices of a piece -/
noncomputable def pieceOf (m : Mesh F) (v : Nat) : Finset Nat := (m.vs.filter fun u => decide (m.Together v u)).toFinset

theorem mem_pieceOf (w : m.WF) {v u : Nat} : u ∈ pieceOf m v ↔ m.vAlive u = true ∧ m.Together v u := by
  rw [pieceOf, List.mem_toFinset, List.mem_filter, w.vDense.mem, decide_eq_true_iff]

theorem joined_symm (w : m.WF) {u v : Nat} (h : m.Joined u v) : m.Joined v u := by
  obtain ⟨x, a, rfl, rfl⟩ := h
  exact ⟨m.hRev x, w.rev_alive _ a, w.src_rev _ a, w.src_next_rev a⟩

theorem joined_alive (w : m.WF) {u v : Nat} (h : m.Joined u v) : m.vAlive v = true := by
  obtain ⟨x, a, rfl, rfl⟩ := h
  exact w.src_alive _ (w.next_alive _ a)

theorem piece_closed (w : m.WF) (v : Nat) : ∀ u ∈ pieceOf m v, nbs m u ≠ [] ∧ ∀ x ∈ nbs m u, x ∈ pieceOf m v := by
  intro u hu
  rw [mem_pieceOf w] at hu
  refine ⟨fun h => ?_, fun x hx => ?_⟩
  · have := outDeg_pos w hu.1
    rw [← nbs_length, h] at this
    cases this
  · rw [mem_nbs w] at hx
    rw [mem_pieceOf w]
    exact ⟨joined_alive w hx, hu.2.trans _ _ _ (.rel _ _ hx)⟩

/-- everything in a piece is in reach of every vertex of it -/
theorem within_of_together (w : m.WF) {T : Nat → Prop} {u v : Nat} (h : m.Together u v) : (∃ k, Within (nbs m) T k u) ↔ ∃ k, Within (nbs m) T k v := by
  induction h with
  | rel x y h =>
    constructor
    · rintro ⟨k, hk⟩
      exact ⟨k + 1, Or.inr ⟨x, (mem_nbs w).2 (joined_symm w h), hk⟩⟩
    · rintro ⟨k, hk⟩
      exact ⟨k + 1, Or.inr ⟨y, (mem_nbs w).2 h, hk⟩⟩
  | refl x => exact Iff.rfl
  | symm x y _ ih => exact ih.symm
  | trans x y z _ _ ih ih' => exact ih.trans ih'

theorem harmonic_iff (m : Mesh F) {eps : ℝ} (h0 : eps ≠ 0) (h : Nat → E3) (u : Nat) :
    (∀ i, relax (nbs m) m.Pinned eps (fun x => h x i) u = h u i) ↔ (¬ m.Pinned u → h u = m.centroid h u) := by
  constructor
  · intro k np
    ext i
    have := k i
    unfold relax at this
    rw [if_neg np, ← centroid_coord] at this
    have : eps * (m.centroid h u i - h u i) = 0 := by linarith
    rcases mul_eq_zero.1 this with h | h
    · exact absurd h h0
    · linarith
  · intro k i
    unfold relax
    split
    · rfl
    · next np =>
      rw [← centroid_coord, ← k np]
      ring

/-- smoothing of a piece with pinned vertices -/
theorem average_anchored (w : m.WF) {eps : ℝ} (h0 : 0 < eps) (h1 : eps ≤ 1) {v : Nat} (hp : ∃ u, m.Together v u ∧ m.Pinned u) (p : Nat → E3) :
    ∃ h, m.Harmonic v p h ∧ (∀ h', m.Harmonic v p h' → ∀ u, m.vAlive u = true → m.Together v u → h' u = h u) ∧
      ∃ K θ B, 0 < K ∧ 0 ≤ θ ∧ θ < (1 : ℝ) ∧ ∀ n u, m.vAlive u = true → m.Together v u → ∀ i,
        |(m.average eps)^[n] p u i - h u i| ≤ θ ^ (n / K) * B := by
  have hN := piece_closed w v
  obtain ⟨x, tx, px⟩ := hp
  have hR : ∀ u ∈ pieceOf m v, ∃ k, Within (nbs m) m.Pinned k u := by
    intro u hu
    rw [mem_pieceOf w] at hu
    exact (within_of_together w (hu.2.symm.trans _ _ _ tx)).2 ⟨0, px⟩
  have ex := fun i : Fin 3 => relax_harmonic (Pin := m.Pinned) h0 h1 hN hR fun u => p u i
  choose g hg1 hg2 using ex
  obtain ⟨h, hh⟩ : ∃ h : Nat → E3, ∀ u i, h u i = g i u := ⟨fun u => WithLp.toLp 2 fun i => g i u, fun u i => rfl⟩
  have fun_h : ∀ i, (fun u => h u i) = g i := fun i => funext fun u => hh u i
  have H : m.Harmonic v p h := by
    refine ⟨fun u au tu pu => ?_, fun u au tu => ?_⟩
    · ext i
      rw [hh]
      exact hg1 i u ((mem_pieceOf w).2 ⟨au, tu⟩) pu
    · rw [← harmonic_iff m h0.ne']
      intro i
      rw [fun_h, hh]
      exact hg2 i u ((mem_pieceOf w).2 ⟨au, tu⟩)
  obtain ⟨K, θ, hK, t0, t1, S⟩ := relax_shrink h0 h1 hN hR
  have bd := fun i : Fin 3 => exists_bound (pieceOf m v) fun u => p u i - h u i
  choose B hB0 hB using bd
  refine ⟨h, H, fun h' H' u au tu => ?_, K, θ, ∑ i, B i, hK, t0, t1, fun n u au tu i => ?_⟩
  · ext i
    refine relax_unique h0 h1 hN hR (g := fun u => h' u i) (g' := fun u => h u i) (fun y hy py => ?_) (fun y hy => ?_) (fun y hy => ?_) u
      ((mem_pieceOf w).2 ⟨au, tu⟩)
    · rw [mem_pieceOf w] at hy
      rw [H'.pinned y hy.1 hy.2 py, H.pinned y hy.1 hy.2 py]
    · rw [mem_pieceOf w] at hy
      exact (harmonic_iff m h0.ne' h' y).2 (H'.mean y hy.1 hy.2) i
    · rw [mem_pieceOf w] at hy
      exact (harmonic_iff m h0.ne' h y).2 (H.mean y hy.1 hy.2) i
  · have hu := (mem_pieceOf w).2 ⟨au, tu⟩
    have := S _ (B i) (fun y hy py => by
      rw [mem_pieceOf w] at hy
      rw [H.pinned y hy.1 hy.2 py, sub_self]) (hB i) n u hu
    rw [relax_iter_sub] at this
    simp only at this
    rw [← average_iter_coord, relax_fix_iter (fun y hy => (hN y hy).2) (g := fun u => h u i) (fun y hy => by
      rw [mem_pieceOf w] at hy
      exact (harmonic_iff m h0.ne' h y).2 (H.mean y hy.1 hy.2) i) n u hu] at this
    refine this.trans ?_
    gcongr
    exact Finset.single_le_sum (fun j _ => hB0 j) (Finset.mem_univ i)

/-! ### pieces without pinned vertices -/

theorem sum_out (w : m.WF) (v : Nat) (g : Nat → ℝ) :
    ((m.hes.filter fun h => m.hSrc h == v).map g).sum = ∑ h ∈ m.hes.toFinset with m.hSrc h = v, g h := by
  rw [← List.sum_toFinset _ (w.hDense.nodup.filter _)]
  refine Finset.sum_congr ?_ fun _ _ => rfl
  ext h
  simp

theorem sum_nbs (w : m.WF) (v : Nat) (f : Nat → ℝ) : ((nbs m v).map f).sum = ∑ h ∈ m.hes.toFinset with m.hSrc h = v, f (m.hSrc (m.hNext h)) := by
  rw [nbs, List.map_map, sum_out w]
  rfl

theorem card_out (w : m.WF) (v : Nat) : (m.outDeg v : ℝ) = ∑ h ∈ m.hes.toFinset with m.hSrc h = v, (1 : ℝ) := by
  rw [← sum_out w, ← nbs_length, nbs]
  simp

/-- the half-edges of a piece can be taken in reverse -/
theorem sum_piece_rev (w : m.WF) (v : Nat) (g : Nat → ℝ) :
    ∑ h ∈ m.hes.toFinset with m.hSrc h ∈ pieceOf m v, g (m.hRev h) = ∑ h ∈ m.hes.toFinset with m.hSrc h ∈ pieceOf m v, g h := by
  have cl : ∀ h ∈ m.hes.toFinset.filter (fun h => m.hSrc h ∈ pieceOf m v), m.hRev h ∈ m.hes.toFinset.filter fun h => m.hSrc h ∈ pieceOf m v := by
    intro h hh
    simp only [Finset.mem_filter, List.mem_toFinset, w.hDense.mem] at hh ⊢
    refine ⟨w.rev_alive _ hh.1, ?_⟩
    rw [w.src_rev _ hh.1]
    exact (piece_closed w v _ hh.2).2 _ ((mem_nbs w).2 ⟨h, hh.1, rfl, rfl⟩)
  have rr : ∀ h ∈ m.hes.toFinset.filter (fun h => m.hSrc h ∈ pieceOf m v), m.hRev (m.hRev h) = h := by
    intro h hh
    simp only [Finset.mem_filter, List.mem_toFinset, w.hDense.mem] at hh
    exact w.rev_rev _ hh.1
  exact Finset.sum_nbij' m.hRev m.hRev cl cl rr rr fun h hh => rfl

theorem sum_piece_src (w : m.WF) (v : Nat) (g : Nat → Nat → ℝ) :
    ∑ u ∈ pieceOf m v, ∑ h ∈ m.hes.toFinset with m.hSrc h = u, g u h = ∑ h ∈ m.hes.toFinset with m.hSrc h ∈ pieceOf m v, g (m.hSrc h) h := by
  rw [← Finset.sum_fiberwise_of_maps_to (s := m.hes.toFinset.filter fun h => m.hSrc h ∈ pieceOf m v) (t := pieceOf m v) (g := m.hSrc)
    (fun h hh => (Finset.mem_filter.1 hh).2)]
  refine Finset.sum_congr rfl fun u hu => ?_
  refine Finset.sum_congr ?_ fun h hh => ?_
  · ext h
    simp only [Finset.mem_filter]
    constructor
    · rintro ⟨a, rfl⟩; exact ⟨⟨a, hu⟩, rfl⟩
    · rintro ⟨⟨a, _⟩, e⟩; exact ⟨a, e⟩
  · rw [(Finset.mem_filter.1 hh).2]

/-- the weighted sum of a piece without pinned vertices is kept -/
theorem relax_weighted (w : m.WF) (eps : ℝ) {v : Nat} (hP : ∀ u ∈ pieceOf m v, ¬ m.Pinned u) (f : Nat → ℝ) :
    ∑ u ∈ pieceOf m v, (m.outDeg u : ℝ) * relax (nbs m) m.Pinned eps f u = ∑ u ∈ pieceOf m v, (m.outDeg u : ℝ) * f u := by
  have e1 : ∀ u ∈ pieceOf m v, (m.outDeg u : ℝ) * relax (nbs m) m.Pinned eps f u =
      (1 - eps) * ((m.outDeg u : ℝ) * f u) + eps * ((nbs m u).map f).sum := by
    intro u hu
    unfold relax
    rw [if_neg (hP u hu), nbs_length]
    have : (m.outDeg u : ℝ) ≠ 0 := by
      have := outDeg_pos w ((mem_pieceOf w).1 hu).1
      positivity
    field_simp
    ring
  rw [Finset.sum_congr rfl e1, Finset.sum_add_distrib, ← Finset.mul_sum, ← Finset.mul_sum]
  have e2 : ∑ u ∈ pieceOf m v, ((nbs m u).map f).sum = ∑ u ∈ pieceOf m v, (m.outDeg u : ℝ) * f u := by
    have a : ∑ u ∈ pieceOf m v, ((nbs m u).map f).sum = ∑ h ∈ m.hes.toFinset with m.hSrc h ∈ pieceOf m v, f (m.hSrc (m.hNext h)) := by
      rw [← sum_piece_src w v fun _ h => f (m.hSrc (m.hNext h))]
      exact Finset.sum_congr rfl fun u _ => sum_nbs w u f
    have b : ∑ u ∈ pieceOf m v, (m.outDeg u : ℝ) * f u = ∑ h ∈ m.hes.toFinset with m.hSrc h ∈ pieceOf m v, f (m.hSrc h) := by
      rw [← sum_piece_src w v fun u _ => f u]
      refine Finset.sum_congr rfl fun u _ => ?_
      rw [card_out w, Finset.sum_mul]
      simp
    rw [a, b, ← sum_piece_rev w v fun h => f (m.hSrc h)]
    refine Finset.sum_congr rfl fun h hh => ?_
    rw [Finset.mem_filter, List.mem_toFinset, w.hDense.mem] at hh
    rw [w.src_rev _ hh.1]
  rw [e2]
  ring

theorem relax_weighted_iter (w : m.WF) (eps : ℝ) {v : Nat} (hP : ∀ u ∈ pieceOf m v, ¬ m.Pinned u) (f : Nat → ℝ) (n : Nat) :
    ∑ u ∈ pieceOf m v, (m.outDeg u : ℝ) * (relax (nbs m) m.Pinned eps)^[n] f u = ∑ u ∈ pieceOf m v, (m.outDeg u : ℝ) * f u := by
  induction n generalizing f with
  | zero => rfl
  | succ n ih => rw [Function.iterate_succ_apply, ih, relax_weighted w eps hP]

theorem hub_coord (w : m.WF) (v : Nat) (p : Nat → E3) (i : Fin 3) :
    m.hub v p i = (∑ u ∈ pieceOf m v, (m.outDeg u : ℝ))⁻¹ * ∑ u ∈ pieceOf m v, (m.outDeg u : ℝ) * p u i := by
  unfold Mesh.hub
  rw [PiLp.smul_apply, smul_eq_mul, sum_coord, pieceOf, List.sum_toFinset _ (w.vDense.nodup.filter _),
    List.sum_toFinset _ (w.vDense.nodup.filter _)]
  rfl

/-- smoothing of a piece without pinned vertices in which all numbers approach each other -/
theorem average_free_of (w : m.WF) {eps : ℝ} {v : Nat} (av : m.vAlive v = true)
    (hp : ∀ u, m.vAlive u = true → m.Together v u → ¬ m.Pinned u)
    (SP : ∃ K θ, 0 < K ∧ 0 ≤ θ ∧ θ < (1 : ℝ) ∧ ∀ (f : Nat → ℝ) (lo hi : ℝ), (∀ u ∈ pieceOf m v, lo ≤ f u ∧ f u ≤ hi) →
      ∀ n, ∃ lo' hi', hi' - lo' ≤ θ ^ (n / K) * (hi - lo) ∧
        ∀ u ∈ pieceOf m v, lo' ≤ (relax (nbs m) m.Pinned eps)^[n] f u ∧ (relax (nbs m) m.Pinned eps)^[n] f u ≤ hi')
    (p : Nat → E3) :
    ∃ K θ B, 0 < K ∧ 0 ≤ θ ∧ θ < (1 : ℝ) ∧ ∀ n u, m.vAlive u = true → m.Together v u → ∀ i,
        |(m.average eps)^[n] p u i - m.hub v p i| ≤ θ ^ (n / K) * B := by
  have hv : v ∈ pieceOf m v := (mem_pieceOf w).2 ⟨av, .refl _⟩
  have hP : ∀ u ∈ pieceOf m v, ¬ m.Pinned u := fun u hu => hp u ((mem_pieceOf w).1 hu).1 ((mem_pieceOf w).1 hu).2
  obtain ⟨K, θ, hK, t0, t1, S⟩ := SP
  have bd := fun i : Fin 3 => exists_bound (pieceOf m v) fun u => p u i
  choose B hB0 hB using bd
  refine ⟨K, θ, ∑ i, 2 * B i, hK, t0, t1, fun n u au tu i => ?_⟩
  obtain ⟨lo, hi, hd, hb⟩ := S (fun u => p u i) (-B i) (B i) (fun y hy => abs_le.1 (hB i y hy)) n
  have hu := (mem_pieceOf w).2 ⟨au, tu⟩
  have bu := hb u hu
  rw [← average_iter_coord] at bu
  have W := relax_weighted_iter w eps hP (fun u => p u i) n
  have D : 0 < ∑ u ∈ pieceOf m v, (m.outDeg u : ℝ) :=
    Finset.sum_pos (fun y hy => by have := outDeg_pos w ((mem_pieceOf w).1 hy).1; positivity) ⟨v, hv⟩
  have l1 : (∑ u ∈ pieceOf m v, (m.outDeg u : ℝ)) * lo ≤ ∑ u ∈ pieceOf m v, (m.outDeg u : ℝ) * p u i := by
    rw [← W, Finset.sum_mul]
    exact Finset.sum_le_sum fun y hy => mul_le_mul_of_nonneg_left (hb y hy).1 (Nat.cast_nonneg _)
  have l2 : ∑ u ∈ pieceOf m v, (m.outDeg u : ℝ) * p u i ≤ (∑ u ∈ pieceOf m v, (m.outDeg u : ℝ)) * hi := by
    rw [← W, Finset.sum_mul]
    exact Finset.sum_le_sum fun y hy => mul_le_mul_of_nonneg_left (hb y hy).2 (Nat.cast_nonneg _)
  have hl : lo ≤ m.hub v p i := by
    rw [hub_coord w, inv_mul_eq_div, le_div_iff₀ D]
    linarith
  have hh : m.hub v p i ≤ hi := by
    rw [hub_coord w, inv_mul_eq_div, div_le_iff₀ D]
    linarith
  have hs : 2 * B i ≤ ∑ i, 2 * B i := Finset.single_le_sum (f := fun i => 2 * B i) (fun j _ => by have := hB0 j; linarith) (Finset.mem_univ i)
  have : θ ^ (n / K) * (B i - -B i) ≤ θ ^ (n / K) * ∑ i, 2 * B i := mul_le_mul_of_nonneg_left (by linarith) (pow_nonneg t0 _)
  rw [abs_le]
  constructor <;> linarith [bu.1, bu.2]

theorem piece_reach (w : m.WF) (v : Nat) : ∀ u ∈ pieceOf m v, ∃ k, Within (nbs m) (· = v) k u := by
  intro u hu
  rw [mem_pieceOf w] at hu
  exact (within_of_together w hu.2).1 ⟨0, rfl⟩

/-- smoothing of a piece without pinned vertices -/
theorem average_free (w : m.WF) {eps : ℝ} (h0 : 0 < eps) (h1 : eps < 1) {v : Nat} (av : m.vAlive v = true)
    (hp : ∀ u, m.vAlive u = true → m.Together v u → ¬ m.Pinned u) (p : Nat → E3) :
    ∃ K θ B, 0 < K ∧ 0 ≤ θ ∧ θ < (1 : ℝ) ∧ ∀ n u, m.vAlive u = true → m.Together v u → ∀ i,
        |(m.average eps)^[n] p u i - m.hub v p i| ≤ θ ^ (n / K) * B :=
  average_free_of w av hp (relax_spread h0 h1 (piece_closed w v) ((mem_pieceOf w).2 ⟨av, .refl _⟩) (piece_reach w v)
    fun u hu => hp u ((mem_pieceOf w).1 hu).1 ((mem_pieceOf w).1 hu).2) p

/-- the same for triangle meshes and steps of full size -/
theorem average_free_tri (w : m.WF) (t : m.TriOrHole) {eps : ℝ} (h0 : 0 < eps) (h1 : eps ≤ 1) {v : Nat} (av : m.vAlive v = true)
    (hp : ∀ u, m.vAlive u = true → m.Together v u → ¬ m.Pinned u) (p : Nat → E3) :
    ∃ K θ B, 0 < K ∧ 0 ≤ θ ∧ θ < (1 : ℝ) ∧ ∀ n u, m.vAlive u = true → m.Together v u → ∀ i,
        |(m.average eps)^[n] p u i - m.hub v p i| ≤ θ ^ (n / K) * B := by
  have np := hp v av (.refl _)
  obtain ⟨h, ah, sh⟩ : ∃ h, m.hAlive h = true ∧ m.hSrc h = v := by
    have := outDeg_pos w av
    rw [Mesh.outDeg, List.countP_pos_iff] at this
    obtain ⟨h, hh, e⟩ := this
    exact ⟨h, (w.hDense.mem h).1 hh, by simpa using e⟩
  have bh : m.hBd h = false := by
    cases e : m.hBd h
    · rfl
    · exact absurd (Or.inl ⟨h, ah, sh, e⟩) np
  have an := w.next_alive _ ah
  have ann := w.next_alive _ an
  have t3 : m.hNext (m.hNext (m.hNext h)) = h := by
    rcases t.holds h ah with k | k
    · exact k
    · have := (k h ah rfl).1
      rw [bh] at this
      cases this
  have h2 : Walk (nbs m) (· = v) 2 v :=
    ⟨_, (mem_nbs w).2 ⟨h, ah, sh, rfl⟩, _, (mem_nbs w).2 (joined_symm w ⟨h, ah, sh, rfl⟩), rfl⟩
  have h3 : Walk (nbs m) (· = v) 3 v :=
    ⟨_, (mem_nbs w).2 ⟨h, ah, sh, rfl⟩, _, (mem_nbs w).2 ⟨_, an, rfl, rfl⟩, _, (mem_nbs w).2 ⟨_, ann, rfl, rfl⟩, by
      show m.hSrc (m.hNext (m.hNext (m.hNext h))) = v
      rw [t3, sh]⟩
  exact average_free_of w av hp (relax_spread_odd h0 h1 (piece_closed w v) ((mem_pieceOf w).2 ⟨av, .refl _⟩) (piece_reach w v)
    (fun u hu => hp u ((mem_pieceOf w).1 hu).1 ((mem_pieceOf w).1 hu).2) h2 h3) p

/-! ### energy -/

theorem stretch_eq (w : m.WF) (p : Nat → E3) : m.stretch p = ∑ h ∈ m.hes.toFinset, ‖p (m.hSrc h) - p (m.hSrc (m.hNext h))‖ ^ 2 := by
  rw [Mesh.stretch, List.sum_toFinset _ w.hDense.nodup]

theorem sum_all_rev (w : m.WF) (g : Nat → ℝ) : ∑ h ∈ m.hes.toFinset, g (m.hRev h) = ∑ h ∈ m.hes.toFinset, g h := by
  have cl : ∀ h ∈ m.hes.toFinset, m.hRev h ∈ m.hes.toFinset := by
    intro h hh
    simp only [List.mem_toFinset, w.hDense.mem] at hh ⊢
    exact w.rev_alive _ hh
  have rr : ∀ h ∈ m.hes.toFinset, m.hRev (m.hRev h) = h := by
    intro h hh
    simp only [List.mem_toFinset, w.hDense.mem] at hh
    exact w.rev_rev _ hh
  exact Finset.sum_nbij' m.hRev m.hRev cl cl rr rr fun h hh => rfl

theorem sum_all_src (w : m.WF) (g : Nat → Nat → ℝ) :
    ∑ u ∈ m.vs.toFinset, ∑ h ∈ m.hes.toFinset with m.hSrc h = u, g u h = ∑ h ∈ m.hes.toFinset, g (m.hSrc h) h := by
  rw [← Finset.sum_fiberwise_of_maps_to (s := m.hes.toFinset) (t := m.vs.toFinset) (g := m.hSrc)
    (fun h hh => by
      rw [List.mem_toFinset, w.hDense.mem] at hh
      rw [List.mem_toFinset, w.vDense.mem]
      exact w.src_alive _ hh)]
  refine Finset.sum_congr rfl fun u hu => ?_
  refine Finset.sum_congr rfl fun h hh => ?_
  rw [(Finset.mem_filter.1 hh).2]

theorem sum_out_E (w : m.WF) (v : Nat) (g : Nat → E3) :
    ((m.hes.filter fun h => m.hSrc h == v).map g).sum = ∑ h ∈ m.hes.toFinset with m.hSrc h = v, g h := by
  rw [← List.sum_toFinset _ (w.hDense.nodup.filter _)]
  refine Finset.sum_congr ?_ fun _ _ => rfl
  ext h
  simp

/-- the squared length of the step of a vertex, weighted by its degree and for `eps = 1` -/
noncomputable def drop (m : Mesh F) (p : Nat → E3) : ℝ :=
  ∑ v ∈ m.vs.toFinset, (m.outDeg v : ℝ) * if m.Pinned v then 0 else ‖m.centroid p v - p v‖ ^ 2

theorem stretch_average (w : m.WF) (eps : ℝ) (p : Nat → E3) :
    m.stretch (m.average eps p) ≤ m.stretch p - 4 * (eps * (1 - eps)) * drop m p := by
  obtain ⟨d, hd⟩ : ∃ d : Nat → E3, ∀ v, m.average eps p v = p v + d v := ⟨fun v => m.average eps p v - p v, fun v => (add_sub_cancel _ _).symm⟩
  have hd' : ∀ v, d v = if m.Pinned v then 0 else eps • (m.centroid p v - p v) := by
    intro v
    have := hd v
    unfold Mesh.average at this
    split at this
    · next hp => rw [if_pos hp]; exact left_eq_add.1 this
    · next hp => rw [if_neg hp]; exact (add_left_cancel this).symm
  have sq : ∑ h ∈ m.hes.toFinset, ‖d (m.hSrc h)‖ ^ 2 = eps ^ 2 * drop m p := by
    rw [← sum_all_src w fun u _ => ‖d u‖ ^ 2, drop, Finset.mul_sum]
    refine Finset.sum_congr rfl fun u _ => ?_
    rw [card_out w, hd' u]
    split
    · simp
    · rw [norm_smul, mul_pow, Real.norm_eq_abs, sq_abs, Finset.sum_mul, Finset.mul_sum]
      exact Finset.sum_congr rfl fun _ _ => by ring
  have sq' : ∑ h ∈ m.hes.toFinset, ‖d (m.hSrc (m.hNext h))‖ ^ 2 = eps ^ 2 * drop m p := by
    rw [← sq, ← sum_all_rev w]
    refine Finset.sum_congr rfl fun h hh => ?_
    rw [List.mem_toFinset, w.hDense.mem] at hh
    rw [w.src_next_rev hh]
  have cr : ∑ h ∈ m.hes.toFinset, inner ℝ (p (m.hSrc h) - p (m.hSrc (m.hNext h))) (d (m.hSrc h)) = - (eps * drop m p) := by
    have a := sum_all_src w fun u h => inner ℝ (p u - p (m.hSrc (m.hNext h))) (d u)
    rw [← a, drop, Finset.mul_sum, ← Finset.sum_neg_distrib]
    refine Finset.sum_congr rfl fun u hu => ?_
    rw [List.mem_toFinset, w.vDense.mem] at hu
    rw [← sum_inner, Finset.sum_sub_distrib, ← sum_out_E w u fun h => p (m.hSrc (m.hNext h))]
    have c0 : (m.outDeg u : ℝ) ≠ 0 := by
      have := outDeg_pos w hu
      positivity
    have c : ((m.hes.filter fun h => m.hSrc h == u).map fun h => p (m.hSrc (m.hNext h))).sum = (m.outDeg u : ℝ) • m.centroid p u := by
      unfold Mesh.centroid
      rw [smul_smul, mul_inv_cancel₀ c0, one_smul]
    have k : ∑ h ∈ m.hes.toFinset with m.hSrc h = u, p u = (m.outDeg u : ℝ) • p u := by
      rw [card_out w, Finset.sum_smul]
      simp
    rw [c, k, hd' u, ← smul_sub, real_inner_smul_left]
    split
    · simp
    · rw [inner_smul_right, ← neg_sub (m.centroid p u) (p u), inner_neg_left, real_inner_self_eq_norm_sq]
      ring
  have cr' : ∑ h ∈ m.hes.toFinset, inner ℝ (p (m.hSrc h) - p (m.hSrc (m.hNext h))) (d (m.hSrc (m.hNext h))) = eps * drop m p := by
    rw [← neg_neg (eps * drop m p), ← cr, ← Finset.sum_neg_distrib, ← sum_all_rev w]
    refine Finset.sum_congr rfl fun h hh => ?_
    rw [List.mem_toFinset, w.hDense.mem] at hh
    rw [w.src_next_rev hh, w.src_rev _ hh, ← inner_neg_left, neg_sub]
  rw [stretch_eq w, stretch_eq w]
  have pt : ∀ h ∈ m.hes.toFinset, ‖m.average eps p (m.hSrc h) - m.average eps p (m.hSrc (m.hNext h))‖ ^ 2 ≤
      ‖p (m.hSrc h) - p (m.hSrc (m.hNext h))‖ ^ 2 + 2 * inner ℝ (p (m.hSrc h) - p (m.hSrc (m.hNext h))) (d (m.hSrc h)) -
        2 * inner ℝ (p (m.hSrc h) - p (m.hSrc (m.hNext h))) (d (m.hSrc (m.hNext h))) + 2 * ‖d (m.hSrc h)‖ ^ 2 + 2 * ‖d (m.hSrc (m.hNext h))‖ ^ 2 := by
    intro h _
    rw [hd, hd]
    generalize p (m.hSrc h) = a
    generalize p (m.hSrc (m.hNext h)) = b
    generalize d (m.hSrc h) = x
    generalize d (m.hSrc (m.hNext h)) = y
    have e : a + x - (b + y) = (a - b) + (x - y) := by abel
    have t := parallelogram_law_with_norm ℝ x y
    have s := sq_nonneg ‖x + y‖
    rw [e, norm_add_sq_real, inner_sub_right]
    nlinarith
  refine (Finset.sum_le_sum pt).trans ?_
  rw [Finset.sum_add_distrib, Finset.sum_add_distrib, Finset.sum_sub_distrib, Finset.sum_add_distrib, ← Finset.mul_sum, ← Finset.mul_sum, ← Finset.mul_sum,
    ← Finset.mul_sum, sq, sq', cr, cr']
  apply le_of_eq
  ring

theorem drop_eq (w : m.WF) (p : Nat → E3) (vs : Finset Nat) (h : ∀ v, v ∈ vs ↔ m.vAlive v = true ∧ ¬ m.Pinned v) :
    drop m p = ∑ v ∈ vs, (m.outDeg v : ℝ) * ‖m.centroid p v - p v‖ ^ 2 := by
  have e : vs = m.vs.toFinset.filter fun v => ¬ m.Pinned v := by
    ext v
    rw [h, Finset.mem_filter, List.mem_toFinset, w.vDense.mem]
  rw [e, Finset.sum_filter, drop]
  refine Finset.sum_congr rfl fun v _ => ?_
  by_cases c : m.Pinned v <;> simp [c]

theorem drop_nonneg (m : Mesh F) (p : Nat → E3) : 0 ≤ drop m p := by
  refine Finset.sum_nonneg fun v _ => mul_nonneg (Nat.cast_nonneg _) ?_
  split
  · exact le_rfl
  · positivity

theorem drop_pos (w : m.WF) {eps : ℝ} {p : Nat → E3} {v : Nat} (av : m.vAlive v = true) (h : m.average eps p v ≠ p v) : 0 < drop m p := by
  refine Finset.sum_pos' (fun v _ => mul_nonneg (Nat.cast_nonneg _) ?_) ⟨v, List.mem_toFinset.2 ((w.vDense.mem v).2 av), ?_⟩
  · split
    · exact le_rfl
    · positivity
  · unfold Mesh.average at h
    have hp : ¬ m.Pinned v := fun hp => by rw [if_pos hp] at h; exact h rfl
    rw [if_neg hp] at h ⊢
    have : m.centroid p v - p v ≠ 0 := fun e => by rw [e, smul_zero, add_zero] at h; exact h rfl
    have := outDeg_pos w av
    positivity

theorem stretch_average_le (w : m.WF) {eps : ℝ} (h0 : 0 ≤ eps) (h1 : eps ≤ 1) (p : Nat → E3) : m.stretch (m.average eps p) ≤ m.stretch p := by
  have := stretch_average w eps p
  have : 0 ≤ 4 * (eps * (1 - eps)) * drop m p := mul_nonneg (mul_nonneg (by norm_num) (mul_nonneg h0 (by linarith))) (drop_nonneg m p)
  linarith

theorem stretch_iter_le (w : m.WF) {eps : ℝ} (h0 : 0 ≤ eps) (h1 : eps ≤ 1) (n : Nat) (p : Nat → E3) : m.stretch ((m.average eps)^[n] p) ≤ m.stretch p := by
  induction n generalizing p with
  | zero => exact le_rfl
  | succ n ih =>
    rw [Function.iterate_succ_apply]
    exact (ih _).trans (stretch_average_le w h0 h1 p)

theorem stretch_iter_lt (w : m.WF) {eps : ℝ} (h0 : 0 < eps) (h1 : eps < 1) (n : Nat) (p : Nat → E3) {v : Nat} (av : m.vAlive v = true)
    (hv : (m.average eps)^[n] p v ≠ p v) : m.stretch ((m.average eps)^[n] p) < m.stretch p := by
  induction n generalizing p with
  | zero => exact absurd rfl hv
  | succ n ih =>
    rw [Function.iterate_succ_apply] at hv ⊢
    by_cases hm : ∃ u, m.vAlive u = true ∧ m.average eps p u ≠ p u
    · obtain ⟨u, au, hu⟩ := hm
      have a := stretch_average w eps p
      have b := stretch_iter_le w h0.le h1.le n (m.average eps p)
      have c : 0 < 4 * (eps * (1 - eps)) * drop m p := mul_pos (mul_pos (by norm_num) (mul_pos h0 (by linarith))) (drop_pos w au hu)
      linarith
    · have e : m.average eps p v = p v := by
        by_contra k
        exact hm ⟨v, av, k⟩
      rw [← e] at hv
      exact (ih _ hv).trans_le (stretch_average_le w h0.le h1.le p)

end
end TinyMesh
