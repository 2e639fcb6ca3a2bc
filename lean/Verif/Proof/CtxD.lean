import Verif.Proof.CtxC
/-
The offsets of the targets and their new positions.
-/
namespace TinyMesh
open Orbit
variable {m : Mesh XR} {p : Nat → E3}

theorem vtx_at (w : m.WF) {i : Nat} (h : i < m.vs.length) : m.vs[i]? = some (m.vtx i) ∧ m.vAlive (m.vtx i) = true := by
  have e := List.getElem?_eq_getElem h
  have : m.vtx i = m.vs[i] := vtx_eq e
  rw [this]
  exact ⟨e, w.vDense.alive_at e⟩

theorem nodup_vtx {F : Type} {m : Mesh F} (w : m.WF) {l : List Nat} (hl : ∀ i ∈ l, i < m.vs.length) (nd : l.Nodup) : (l.map m.vtx).Nodup := by
  refine List.Nodup.map_on (fun i hi j hj e => ?_) nd
  have h1 := hl i hi
  have h2 := hl j hj
  rw [Mesh.vtx, Mesh.vtx, List.getElem?_eq_getElem h1, List.getElem?_eq_getElem h2, Option.getD_some, Option.getD_some] at e
  exact w.vDense.nodup.getElem_inj_iff.1 e

theorem offsetRow_ok (w : m.WF) (A : m.AtE p) {tgt : List Nat} (nd : tgt.Nodup) (ht : ∀ i ∈ tgt, i < m.vs.length)
    (lk : ∀ u, m.vAlive u = true → m.vLock u = !(tgt.map m.vtx).contains u) {r i : Nat} (hi : tgt[r]? = some i) {t : OffSys XR} {K KF : List Keyed}
    (h : SysHolds m.vFresh (fun u => (tgt.map m.vtx).contains u) (t.lines m tgt) K KF) (g : ∀ j ∈ t.fixed, j < m.vs.length) :
    ∃ t', offsetRow tgt r t m = .ok t' m ∧ SysHolds m.vFresh (fun u => (tgt.map m.vtx).contains u) (t'.lines m tgt)
        (K ++ rowV m p (tgt.map m.vtx) (m.vtx i)) (KF ++ rowVF m p (tgt.map m.vtx) (m.vtx i)) ∧ ∀ j ∈ t'.fixed, j < m.vs.length := by
  have mi : i ∈ tgt := List.mem_iff_getElem?.2 ⟨r, hi⟩
  obtain ⟨hv, a⟩ := vtx_at w (ht i mi)
  have hr : tgt.idxOf i = r := by
    obtain ⟨hl, e⟩ := List.getElem?_eq_some_iff.1 hi
    rw [← e]
    exact List.Nodup.idxOf_getElem nd _ _
  obtain ⟨t', e1, e2, e3⟩ := offsetLoop_ok w A ht lk mi (orbit m.sig (m.vHe (m.vtx i))) 0 t K KF (fun x hx => ((w.mem_ring a).1 hx).1) h g
  have mm : m.vtx i ∈ (t'.lines m tgt).free := List.mem_map_of_mem mi
  have e5 := e2.add mm mm ((orbit m.sig (m.vHe (m.vtx i))).map (m.cotOf p)).sum
  have row : (t'.lines m tgt).free.idxOf (m.vtx i) = r := ((idxOf_map w ht (ht i mi)).1).trans hr
  refine ⟨{ t' with tTgt := t'.tTgt ++ [trip r r (.fin ((orbit m.sig (m.vHe (m.vtx i))).map (m.cotOf p)).sum)] }, ?_, ?_, e3⟩
  · unfold offsetRow
    rw [bind_apply, atIdx_ok hi]; dsimp only
    rw [bind_apply, vertexAt_run hv]; dsimp only
    rw [bind_apply, w.ringList_ok a]; dsimp only
    rw [hr, zero_add] at e1
    rw [bind_apply, lit_zero, e1]
    rfl
  · unfold rowV rowVF
    rw [row] at e5
    rw [← List.append_assoc]
    exact e5

theorem offSys_ok (w : m.WF) (A : m.AtE p) {tgt : List Nat} (nd : tgt.Nodup) (ht : ∀ i ∈ tgt, i < m.vs.length)
    (lk : ∀ u, m.vAlive u = true → m.vLock u = !(tgt.map m.vtx).contains u) :
    ∃ t, foldAll (offsetRow tgt) (List.range tgt.length) ⟨[], [], []⟩ m = .ok t m ∧ PSys m p (tgt.map m.vtx) (t.lines m tgt) ∧ ∀ j ∈ t.fixed, j < m.vs.length := by
  have ndV := nodup_vtx w ht nd
  have alV : ∀ v ∈ tgt.map m.vtx, m.vAlive v = true := by
    intro v hv
    obtain ⟨i, hi, rfl⟩ := List.mem_map.1 hv
    exact (vtx_at w (ht i hi)).2
  obtain ⟨t, e, h1, h2⟩ := foldAll_range (m := m) (body := offsetRow tgt) (P := fun k t =>
      SysHolds m.vFresh (fun u => (tgt.map m.vtx).contains u) (t.lines m tgt) (((tgt.take k).map m.vtx).flatMap (rowV m p (tgt.map m.vtx)))
        (((tgt.take k).map m.vtx).flatMap (rowVF m p (tgt.map m.vtx))) ∧ ∀ j ∈ t.fixed, j < m.vs.length) tgt.length (b := ⟨[], [], []⟩)
    ⟨⟨ndV, List.nodup_nil, fun k hk => ⟨w.v_lt (alV k hk), List.contains_iff_mem.2 hk⟩, by simp [OffSys.lines], by simp, by simp, rfl, rfl⟩, by simp⟩
    (fun r t hr ⟨h, g⟩ => by
      have hi := List.getElem?_eq_getElem hr
      obtain ⟨t', e, h', g'⟩ := offsetRow_ok w A nd ht lk hi h g
      refine ⟨t', e, ?_, g'⟩
      rw [List.take_add_one, hi, Option.toList_some, List.map_append, List.flatMap_append, List.flatMap_append, List.map_singleton,
        List.flatMap_singleton, List.flatMap_singleton]
      exact h')
  refine ⟨t, e, ⟨ndV, alV, ?_, fun v hv => hv, ?_⟩, h2⟩
  · rw [List.take_length] at h1
    exact h1
  · intro u hu
    obtain ⟨j, hj, rfl⟩ := List.mem_map.1 hu
    exact (vtx_at w (h2 j hj)).2

theorem smoothOffsets_ok (w : m.WF) (A : m.AtE p) {tgt : List Nat} (nd : tgt.Nodup) (ht : ∀ i ∈ tgt, i < m.vs.length)
    (lk : ∀ u, m.vAlive u = true → m.vLock u = !(tgt.map m.vtx).contains u) (P : m.Anchored p (· ∈ tgt.map m.vtx)) {solve : LinSolve XR}
    (hE : solve.ExactSym) {off : Nat → Vec3 XR} {O : Nat → E3} (ho : ∀ k u, m.vs[k]? = some u → m.vLock u = true → (off k).Is (O u)) :
    ∃ xx H, smoothOffsets solve tgt off m = .ok xx m ∧ (∀ (r i : Nat), tgt[r]? = some i → (xx r).Is (H (m.vtx i))) ∧
      (∀ v, v ∉ tgt.map m.vtx → H v = O v) ∧ ∀ v ∈ tgt.map m.vtx, m.lap p H v = 0 := by
  obtain ⟨t, e, H, hf⟩ := offSys_ok w A nd ht lk
  obtain ⟨LL, l1, l2⟩ := ofTripletsRect_fin (r := tgt.length) (c := tgt.length)
    (ts := ((tgt.map m.vtx).flatMap (rowV m p (tgt.map m.vtx))).map (numbered (tgt.map m.vtx) (tgt.map m.vtx))) (by
      intro x hx
      obtain ⟨k, hk, rfl⟩ := List.mem_map.1 hx
      obtain ⟨a1, a2⟩ := H.sys.keys k hk
      have b1 : (tgt.map m.vtx).idxOf k.1 < (tgt.map m.vtx).length := List.idxOf_lt_length_iff.2 a1
      have b2 : (tgt.map m.vtx).idxOf k.2.1 < (tgt.map m.vtx).length := List.idxOf_lt_length_iff.2 a2
      rw [List.length_map] at b1 b2
      unfold numbered
      dsimp only
      omega) m
  obtain ⟨SS, l3, l4⟩ := ofTripletsRect_fin (r := tgt.length) (c := t.fixed.length)
    (ts := ((tgt.map m.vtx).flatMap (rowVF m p (tgt.map m.vtx))).map (numbered (tgt.map m.vtx) (t.fixed.map m.vtx))) (by
      intro x hx
      obtain ⟨k, hk, rfl⟩ := List.mem_map.1 hx
      obtain ⟨a1, a2⟩ := H.sys.keysF k hk
      have b1 : (tgt.map m.vtx).idxOf k.1 < (tgt.map m.vtx).length := List.idxOf_lt_length_iff.2 a1
      have b2 : (t.fixed.map m.vtx).idxOf k.2.1 < (t.fixed.map m.vtx).length := List.idxOf_lt_length_iff.2 a2
      rw [List.length_map] at b1 b2
      unfold numbered
      dsimp only
      omega) m
  have det := psMat_det w H P
  have isOff : ∀ v ∈ t.fixed.map m.vtx, (off (m.vIdx v).toNat).Is (O v) := by
    intro v hv
    obtain ⟨j, hj, rfl⟩ := List.mem_map.1 hv
    obtain ⟨e1, a⟩ := vtx_at w (hf j hj)
    refine ho _ _ (w.idx_toNat a).1 ?_
    rw [lk _ a]
    have : (tgt.map m.vtx).contains (m.vtx j) = false := (H.sys.memF _ hv).2
    rw [this]; rfl
  have key : ∀ (co : Vec3 XR → XR) (k : Fin 3), (∀ (a : Vec3 XR) (x : E3), a.Is x → co a = XR.fin (x k)) → _ := fun co k hco =>
    ps_solve w hE H det l2 l4 (d := fun v => co (off (m.vIdx v).toNat)) (D := fun v => O v k) (fun v hv => hco _ _ (isOff v hv))
      (g := fun _ => .fin 0) (G := fun _ => 0) (fun v hv => rfl)
  have conv : ∀ (co : Vec3 XR → XR) (k : Fin 3), (∀ (a : Vec3 XR) (x : E3), a.Is x → co a = XR.fin (x k)) →
      (fun i : Nat => XR.fin 0 - sumN (t.fixed.map m.vtx).length fun k => SS i k * co (off (m.vIdx (((t.fixed.map m.vtx)[k]?).getD 0)).toNat)) =
      fun i : Nat => sumN t.fixed.length fun k => -(SS i k) * co (off ((t.fixed[k]?).getD 0)) := by
    intro co k hco
    funext i
    have at' : ∀ j : Fin t.fixed.length, (m.vIdx (((t.fixed.map m.vtx)[(j : Nat)]?).getD 0)).toNat = t.fixed[j] ∧
        co (off t.fixed[j]) = .fin (O (m.vtx t.fixed[j]) k) := by
      intro j
      have hj : t.fixed[j] ∈ t.fixed := List.getElem_mem j.2
      obtain ⟨e1, a⟩ := vtx_at w (hf _ hj)
      have e2 : (m.vIdx (m.vtx t.fixed[j])).toNat = t.fixed[j] := by rw [w.vDense.idx_of e1]; rfl
      refine ⟨?_, ?_⟩
      · rw [List.getElem?_map, List.getElem?_eq_getElem j.2, Option.map_some, Option.getD_some]; exact e2
      · have := hco _ _ (isOff _ (List.mem_map_of_mem hj))
        rw [e2] at this
        exact this
    rw [List.length_map, sumN_fin (g := fun j : Fin t.fixed.length =>
        coef (((tgt.map m.vtx).flatMap (rowVF m p (tgt.map m.vtx))).map (numbered (tgt.map m.vtx) (t.fixed.map m.vtx))) i j * O (m.vtx t.fixed[j]) k)
      (fun j => by rw [(at' j).1, (at' j).2, l4, X_mul]), X_sub,
      sumN_fin (g := fun j : Fin t.fixed.length =>
        -coef (((tgt.map m.vtx).flatMap (rowVF m p (tgt.map m.vtx))).map (numbered (tgt.map m.vtx) (t.fixed.map m.vtx))) i j * O (m.vtx t.fixed[j]) k)
      (fun j => by
        rw [List.getElem?_eq_getElem j.2, Option.getD_some]
        have := (at' j).2
        dsimp only [Fin.getElem_fin] at this
        rw [this, l4, X_neg, X_mul]; rfl)]
    congr 1
    rw [zero_sub, ← Finset.sum_neg_distrib]
    exact Finset.sum_congr rfl fun j _ => by ring
  obtain ⟨y0, o0, h0, s0⟩ := key Vec3.x 0 (fun a x h => by rw [h.coords])
  obtain ⟨y1, o1, h1, s1⟩ := key Vec3.y 1 (fun a x h => by rw [h.coords])
  obtain ⟨y2, o2, h2, s2⟩ := key Vec3.z 2 (fun a x h => by rw [h.coords])
  have vec : ∀ (a b : E3), a 0 = b 0 → a 1 = b 1 → a 2 = b 2 → a = b := by
    intro a b h0 h1 h2
    ext k
    fin_cases k
    · exact h0
    · exact h1
    · exact h2
  set B : (Vec3 XR → XR) → Nat → XR := fun co i =>
    XR.fin 0 - sumN (t.fixed.map m.vtx).length fun k => SS i k * co (off (m.vIdx (((t.fixed.map m.vtx)[k]?).getD 0)).toNat) with hB
  refine ⟨fun i => ⟨solve tgt.length LL (B Vec3.x) i, solve tgt.length LL (B Vec3.y) i, solve tgt.length LL (B Vec3.z) i⟩,
    fun v => !₂[y0 v, y1 v, y2 v], ?_, ?_, fun v hv => vec _ _ (o0 v hv) (o1 v hv) (o2 v hv), fun v hv => ?_⟩
  · unfold smoothOffsets
    dsimp only
    rw [bind_apply, e]; dsimp only
    have E1 : t.tTgt = _ := H.sys.entries
    have E2 : t.tSrc = _ := H.sys.entriesF
    rw [bind_apply, E1, show (t.lines m tgt).free = tgt.map m.vtx from rfl, l1]; dsimp only
    rw [bind_apply, E2, show (t.lines m tgt).free = tgt.map m.vtx from rfl, show (t.lines m tgt).fixed = t.fixed.map m.vtx from rfl, l3]; dsimp only
    rw [← conv Vec3.x 0 (fun a x h => by rw [h.coords]), ← conv Vec3.y 1 (fun a x h => by rw [h.coords]), ← conv Vec3.z 2 (fun a x h => by rw [h.coords])]
    rfl
  · intro r i hi
    obtain ⟨hl, rfl⟩ := List.getElem?_eq_some_iff.1 hi
    have hl' : r < (t.lines m tgt).free.length := by
      show r < (tgt.map m.vtx).length
      rw [List.length_map]; exact hl
    have e0 := s0 ⟨r, hl'⟩
    have e1 := s1 ⟨r, hl'⟩
    have e2 := s2 ⟨r, hl'⟩
    have fr : (t.lines m tgt).free[r] = m.vtx tgt[r] := List.getElem_map ..
    have ln : (t.lines m tgt).free.length = tgt.length := List.length_map ..
    dsimp only [Fin.getElem_fin] at e0 e1 e2
    rw [fr, ln] at e0 e1 e2
    dsimp only
    have q : (t.lines m tgt).fixed = t.fixed.map m.vtx := rfl
    rw [q] at e0 e1 e2
    rw [e0, e1, e2]
    exact Vec3.Is.of _ _ _
  · unfold Mesh.lap
    refine vec _ _ ?_ ?_ ?_
    · exact (outs_smul_sum (m := m) (p := p) v (fun v => !₂[y0 v, y1 v, y2 v]) 0).trans (h0 v hv)
    · exact (outs_smul_sum (m := m) (p := p) v (fun v => !₂[y0 v, y1 v, y2 v]) 1).trans (h1 v hv)
    · exact (outs_smul_sum (m := m) (p := p) v (fun v => !₂[y0 v, y1 v, y2 v]) 2).trans (h2 v hv)

/-! ### The step -/

theorem stepTargets_ok (pos xx : Nat → Vec3 XR) : ∀ (l : List Nat) (k : Nat) (m : Mesh XR), m.WF → l.Nodup → (∀ i ∈ l, i < m.vs.length) →
    ∃ m', stepTargets pos xx k l m = .ok () m' ∧ m' = { m with vPos := m'.vPos } ∧ (∀ v, v ∉ l.map m.vtx → m'.vPos v = m.vPos v) ∧
      ∀ (r i : Nat), l[r]? = some i → m'.vPos (m.vtx i) =
        (m.vPos (m.vtx i)).add (Vec3.smul (Scalar.lit 1 1 / Scalar.lit 10 1) (((pos i).add (xx (k + r))).sub (m.vPos (m.vtx i))))
  | [], k, m, _, _, _ => ⟨m, rfl, rfl, fun _ _ => rfl, fun i v h => by simp at h⟩
  | i :: l, k, m, w, nd, hl => by
    obtain ⟨n1, n2⟩ := List.nodup_cons.1 nd
    obtain ⟨hv, a⟩ := vtx_at w (hl i (by simp))
    set x := (m.vPos (m.vtx i)).add (Vec3.smul (Scalar.lit 1 1 / Scalar.lit 10 1) (((pos i).add (xx k)).sub (m.vPos (m.vtx i)))) with hx
    obtain ⟨m', e, h1, h2, h3⟩ := stepTargets_ok pos xx l (k + 1) { m with vPos := upd m.vPos (m.vtx i) x } (w.setPos _) n2 (fun u hu => hl u (by simp [hu]))
    have out : m.vtx i ∉ l.map m.vtx := fun c => n1 (((idxOf_map w (fun u hu => hl u (by simp [hu])) (hl i (by simp))).2).1 c)
    refine ⟨m', ?_, h1, fun u hu => ?_, fun r j hj => ?_⟩
    · unfold stepTargets
      rw [bind_apply, vertexAt_run hv]; dsimp only
      rw [bind_apply, getPos_ok a]; dsimp only
      rw [bind_apply, setPos_run a]
      exact e
    · have hu' : u ∉ l.map m.vtx := fun c => hu (by simp only [List.map_cons, List.mem_cons]; exact .inr c)
      rw [h2 u hu']
      exact upd_ne _ _ fun c => hu (by simp [c])
    · cases r with
      | zero =>
        obtain rfl : i = j := by simpa using hj
        rw [h2 _ out, Nat.add_zero]
        exact upd_same ..
      | succ r =>
        have hj' : l[r]? = some j := by simpa using hj
        have mj : j ∈ l := List.mem_iff_getElem?.2 ⟨r, hj'⟩
        have := h3 r j hj'
        have ne : m.vtx j ≠ m.vtx i := fun c => out (c ▸ List.mem_map_of_mem mj)
        have e1 : ({ m with vPos := upd m.vPos (m.vtx i) x } : Mesh XR).vtx j = m.vtx j := rfl
        rw [e1] at this
        rw [this]
        dsimp only
        rw [upd_ne _ _ ne, show k + 1 + r = k + (r + 1) by omega]

theorem moveTargets_ok (w : m.WF) (A : m.AtE p) {ts : List (Target XR)} {g : Target XR → Nat → Vote} {tgt : List Nat} (nd : tgt.Nodup)
    (mt : ∀ i, i ∈ tgt ↔ ∃ v, m.vs[i]? = some v ∧ m.vLock v = false)
    (H : ∀ t ∈ ts, ∀ k ∈ t.patch.ids, ∃ u, m.vs[k]? = some u ∧ 0 ≤ (g t u).dis ∧ t.dis = .fin (g t u).dis ∧
      ∃ c, bvhClosest t.bvh (m.vPos u) = .ok c ∧ c.Is (g t u).point)
    (own : ∀ i ∈ tgt, ∃ t ∈ ts, i ∈ t.patch.ids) (P : m.Anchored p fun v => m.vLock v = false) {solve : LinSolve XR} (hE : solve.ExactSym) :
    ∃ m' T, moveTargets solve ts tgt m = .ok () m' ∧ m' = { m with vPos := m'.vPos } ∧ (∀ v, m.vAlive v = true → m.vLock v = true → m'.vPos v = m.vPos v) ∧
      (∀ v, m.vAlive v = true → m.vLock v = false → (m'.vPos v).Is (p v + (1 / 10 : ℝ) • (voteMean (votesFor m g ts v) + T v - p v))) ∧
      (∀ v, m.vAlive v = true → m.vLock v = true → (∃ t ∈ ts, (m.vIdx v).toNat ∈ t.patch.ids) → T v = p v - voteMean (votesFor m g ts v)) ∧
      ∀ v, m.vAlive v = true → m.vLock v = false → m.lap p T v = 0 := by
  classical
  have ht : ∀ i ∈ tgt, i < m.vs.length := by
    intro i hi
    obtain ⟨v, hv, -⟩ := (mt i).1 hi
    exact (List.getElem?_eq_some_iff.1 hv).1
  have inT : ∀ u, m.vAlive u = true → (u ∈ tgt.map m.vtx ↔ m.vLock u = false) := by
    intro u a
    constructor
    · intro hu
      obtain ⟨i, hi, rfl⟩ := List.mem_map.1 hu
      obtain ⟨v, hv, l⟩ := (mt i).1 hi
      rw [vtx_eq hv]; exact l
    · intro l
      obtain ⟨h1, -⟩ := w.idx_toNat a
      exact List.mem_map.2 ⟨_, (mt _).2 ⟨u, h1, l⟩, vtx_eq h1⟩
  have lk : ∀ u, m.vAlive u = true → m.vLock u = !(tgt.map m.vtx).contains u := by
    intro u a
    cases hl : m.vLock u with
    | true =>
      have : (tgt.map m.vtx).contains u = false := by
        rw [← Bool.not_eq_true, List.contains_iff_mem, inT u a, hl]; simp
      rw [this]; rfl
    | false => rw [List.contains_iff_mem.2 ((inT u a).2 hl)]; rfl
  have P' : m.Anchored p (· ∈ tgt.map m.vtx) := by
    have sub : ∀ v, m.vAlive v = true → m.Linked p (fun u => ¬ m.vLock u = false) v → m.Linked p (fun u => ¬ u ∈ tgt.map m.vtx) v := by
      intro v a l
      induction l with
      | here h => exact .here fun c => h ((inT _ a).1 c)
      | step a' pos l ih => exact .step a' pos (ih (w.src_alive _ (w.next_alive _ a')))
    refine ⟨fun h a hs => P.nonneg h a ((inT _ (w.src_alive _ a)).1 hs), fun v a hs => sub v a (P.linked v a ((inT v a).1 hs))⟩
  obtain ⟨pos, off, e1, z, hv⟩ := votes_ok w A (g := g) H
  set O : Nat → E3 := fun v => if ∃ t ∈ ts, (m.vIdx v).toNat ∈ t.patch.ids then p v - voteMean (votesFor m g ts v) else 0 with hO
  obtain ⟨xx, T, e2, h1, h2, h3⟩ := smoothOffsets_ok w A nd ht lk P' hE (off := off) (O := O) (by
    intro k u hu l
    have hi : (m.vIdx u).toNat = k := by rw [w.vDense.idx_of hu]; rfl
    by_cases c : ∃ t ∈ ts, k ∈ t.patch.ids
    · have : O u = p u - voteMean (votesFor m g ts u) := if_pos (by rw [hi]; exact c)
      rw [this]
      exact (hv k u hu c).1 l
    · have : O u = 0 := if_neg (by rw [hi]; exact c)
      rw [this, z k c]
      exact Vec3.Is.zero)
  obtain ⟨m', e3, q1, q2, q3⟩ := stepTargets_ok pos xx tgt 0 m w nd ht
  refine ⟨m', T, ?_, q1, fun v a l => q2 v (fun c => by rw [(inT v a).1 c] at l; cases l), fun v a l => ?_, fun v a l ht => ?_, fun v a l => h3 v ((inT v a).2 l)⟩
  · unfold moveTargets
    rw [bind_apply, e1]; dsimp only
    rw [bind_apply, e2]
    exact e3
  · obtain ⟨hi, -⟩ := w.idx_toNat a
    obtain ⟨r, hr⟩ := List.mem_iff_getElem?.1 ((mt _).2 ⟨v, hi, l⟩)
    have e := q3 r _ hr
    have i1 := h1 r _ hr
    rw [vtx_eq hi] at e i1
    have tenth : (Scalar.lit 1 1 / Scalar.lit 10 1 : XR) = .fin (1 / 10) := by
      rw [X_lit_fin, X_lit_fin, X_div _ (by norm_num)]; norm_num
    rw [e, tenth, Nat.zero_add]
    have i2 := (hv _ v hi (own _ ((mt _).2 ⟨v, hi, l⟩))).2 l
    exact (A v a).add ((((i2.add i1).sub (A v a))).smul (1 / 10))
  · rw [h2 v fun c => by rw [(inT v a).1 c] at l; cases l]
    exact if_pos ht

end TinyMesh
