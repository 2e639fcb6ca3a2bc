import Verif.Proof.BvhB
/-
Construction and queries of the bounding volume hierarchy.
-/
namespace TinyMesh

/-- a primitive that stands for a triangle of `ts` -/
def Prim.Of (ts : List (Triangle ℝ)) (p : Prim XR) : Prop :=
  p.Fin ∧ ∃ t, ts[p.idx]? = some t ∧ ∀ b : Bounds ℝ, p.bounds = b.fin → t.hull ⊆ b.box

theorem constructRec_ok {lib : Lib XR} (std : lib.Std) {ts : List (Triangle ℝ)} : ∀ (fuel : Nat) (l : List (Prim XR)),
    l.length < fuel → (∀ p ∈ l, p.Of ts) →
    (l = [] → constructRec lib fuel l = .ok .null) ∧
    (l ≠ [] → ∃ t, constructRec lib fuel l = .ok t ∧ t.Boxed ts ∧ t.leaves.Perm (l.map Prim.idx)) := by
  intro fuel
  induction fuel with
  | zero => intro l h; omega
  | succ fuel ih =>
    intro l hfuel hl
    refine ⟨fun h => by subst h; rfl, fun hne => ?_⟩
    match l, hne with
    | [p], _ =>
      obtain ⟨pf, t, ht, hb⟩ := hl p (by simp)
      obtain ⟨-, b, hpb⟩ := pf
      refine ⟨.leaf (Bounds.empty.merge p.bounds) p.idx, rfl, ?_, by simp [BNode.leaves]⟩
      rw [hpb, Bounds.empty_fin, Bounds.merge_fin]
      exact .leaf ht ((hb b hpb).trans (Bounds.le_merge_right _ _).box)
    | p :: p' :: l0, _ =>
      generalize hL : p :: p' :: l0 = L at *
      have hn : 2 ≤ L.length := by rw [← hL]; simp
      obtain ⟨B, hB, hBc⟩ := Bounds.foldl_merge (fun p : Prim XR => p.bounds) L (fun q hq => (hl q hq).1.2) Bounds.empty
      obtain ⟨l', mid, axis, hs, hperm, hm0, hm1⟩ := splitRange_ok std (B := B) (fun q hq => (hl q hq).1) hn hBc
      have hlen' := hperm.length_eq
      have hl' : ∀ q ∈ l', q.Of ts := fun q hq => hl q (hperm.mem_iff.1 hq)
      obtain ⟨tl, e1, b1, p1⟩ := (ih (l'.take mid) (by rw [List.length_take]; omega)
        (fun q hq => hl' q (List.mem_of_mem_take hq))).2 (by
          intro h; have := congrArg List.length h; rw [List.length_take, List.length_nil] at this; omega)
      obtain ⟨tr, e2, b2, p2⟩ := (ih (l'.drop mid) (by rw [List.length_drop]; omega)
        (fun q hq => hl' q (List.mem_of_mem_drop hq))).2 (by
          intro h; have := congrArg List.length h; rw [List.length_drop, List.length_nil] at this; omega)
      have hper : (tl.leaves ++ tr.leaves).Perm (L.map Prim.idx) := by
        refine (p1.append p2).trans ?_
        rw [← List.map_append, List.take_append_drop]
        exact hperm.map _
      refine ⟨.fork B.fin tl tr axis, ?_, .fork b1 b2 ?_, hper⟩
      · subst hL
        rw [constructRec]
        · have hB' : List.foldl (fun b (p : Prim XR) => b.merge p.bounds) Bounds.empty (p :: p' :: l0) = B.fin := hB
          rw [hB', hs]
          show (constructRec lib fuel (List.take mid l')).bind _ = _
          rw [e1]
          show (constructRec lib fuel (List.drop mid l')).bind _ = _
          rw [e2]
          rfl
        · simp
        · simp
      · intro i hi t ht
        obtain ⟨q, hq, rfl⟩ := List.mem_map.1 (hper.mem_iff.1 hi)
        obtain ⟨qf, t', ht', hb⟩ := hl q hq
        rw [ht] at ht'
        obtain rfl := Option.some.inj ht'
        obtain ⟨-, b, hqb⟩ := qf
        exact (hb b hqb).trans (((hBc B).1 (Bounds.Le.refl B)).2 q hq b hqb).box

theorem Triangle.bounds_fin (t : Triangle ℝ) : t.fin.bounds = t.bounds.fin := by
  unfold bounds fin
  simp only [Bounds.empty_fin, Bounds.mergeP_fin]

theorem Triangle.hull_bounds (t : Triangle ℝ) : t.hull ⊆ t.bounds.box := by
  apply convexHull_min _ (Bounds.convex_box _)
  have key : ∀ (b : Bounds ℝ) (p : Vec3 ℝ), p.E ∈ (b.mergeP p).box := by
    intro b p
    apply (Bounds.le_merge_right b ⟨p, p⟩).box
    rw [Bounds.mem_box]
    exact ⟨⟨le_rfl, le_rfl⟩, ⟨le_rfl, le_rfl⟩, le_rfl, le_rfl⟩
  have mono : ∀ (b : Bounds ℝ) (p : Vec3 ℝ), b.box ⊆ (b.mergeP p).box := fun b p => (Bounds.le_merge_left b ⟨p, p⟩).box
  intro x hx
  simp only [Set.mem_insert_iff, Set.mem_singleton_iff] at hx
  unfold bounds
  rcases hx with rfl | rfl | rfl
  · exact mono _ _ (mono _ _ (key _ _))
  · exact mono _ _ (key _ _)
  · exact key _ _

theorem prims_of (ts : List (Triangle ℝ)) : ∀ p ∈ primsOf (ts.map Triangle.fin), p.Of ts := by
  intro p hp
  unfold primsOf at hp
  rw [List.mem_mapIdx] at hp
  obtain ⟨i, hi, rfl⟩ := hp
  rw [List.getElem_map]
  have hi' : i < ts.length := by simpa using hi
  refine ⟨⟨⟨((ts[i].bounds.hi.add ts[i].bounds.lo).smul (Scalar.lit 1 2)), ?_⟩, ts[i].bounds, ?_⟩, ts[i],
    List.getElem?_eq_getElem hi', ?_⟩
  · show ((ts[i].fin.bounds.hi.add ts[i].fin.bounds.lo).smul (Scalar.lit 1 2)) = _
    rw [Triangle.bounds_fin]; rfl
  · exact Triangle.bounds_fin _
  · intro b hb
    have : ts[i].fin.bounds = b.fin := hb
    rw [Triangle.bounds_fin] at this
    rw [← Bounds.fin_inj.1 this]
    exact Triangle.hull_bounds _

theorem prims_idx {F : Type} [Scalar F] (ts : List (Triangle F)) : (primsOf ts).map Prim.idx = List.range ts.length := by
  unfold primsOf
  apply List.ext_getElem
  · simp
  · intro i h1 h2
    simp [Prim.mk']

/-! queries -/

theorem BNode.size_pos {F : Type} (t : BNode F) : 0 < t.size := by
  cases t <;> simp only [size] <;> omega

theorem BNode.Boxed.nonNull {ts : List (Triangle ℝ)} {t : BNode XR} (h : t.Boxed ts) : t.nonNull = true := by
  cases h <;> rfl

theorem BNode.Boxed.valid {ts : List (Triangle ℝ)} {t : BNode XR} (h : t.Boxed ts) : ∀ i ∈ t.leaves, i < ts.length := by
  induction h with
  | leaf h _ =>
    intro j hj
    simp only [leaves, List.mem_singleton] at hj
    subst hj
    exact (List.getElem?_eq_some_iff.1 h).1
  | fork _ _ _ ih1 ih2 =>
    intro j hj
    rcases List.mem_append.1 hj with h | h
    · exact ih1 j h
    · exact ih2 j h

theorem Vec3.length_sub_comm (a b : Vec3 ℝ) : (a.sub b).length = (b.sub a).length := by
  rw [← E_dist, ← E_dist, dist_comm]

theorem query_ok {ts : List (Triangle ℝ)} (q : Vec3 ℝ) : ∀ (fuel : Nat) (stk : List (BNode XR)) (d : ℝ) (ret : Vec3 ℝ),
    (∀ t ∈ stk, t.Boxed ts) → (stk.map BNode.size).sum ≤ fuel →
    ∃ c : Vec3 ℝ, queryLoop (ts.map Triangle.fin) q.fin fuel stk (XR.fin d) ret.fin = .ok c.fin ∧
      ((c = ret ∧ ∀ n ∈ stk, ∀ i ∈ n.leaves, ∀ t, ts[i]? = some t → d ≤ t.distance q) ∨
       (∃ n ∈ stk, ∃ i ∈ n.leaves, ∃ t, ts[i]? = some t ∧ c = t.closestPoint q ∧ t.distance q < d ∧
          ∀ n' ∈ stk, ∀ j ∈ n'.leaves, ∀ t', ts[j]? = some t' → t.distance q ≤ t'.distance q)) := by
  intro fuel
  induction fuel with
  | zero =>
    intro stk d ret hb hs
    match stk with
    | [] => exact ⟨ret, by simp [queryLoop], Or.inl ⟨rfl, by simp⟩⟩
    | n :: stk =>
      have := n.size_pos
      simp at hs
      omega
  | succ fuel ih =>
    intro stk d ret hb hs
    match stk with
    | [] => exact ⟨ret, by simp [queryLoop], Or.inl ⟨rfl, by simp⟩⟩
    | n :: stk =>
      have hbn := hb n (by simp)
      have hbs : ∀ t ∈ stk, t.Boxed ts := fun t ht => hb t (by simp [ht])
      simp only [List.map_cons, List.sum_cons] at hs
      match n, hbn with
      | _, @BNode.Boxed.leaf _ b i t hti hsub =>
        have hs' : (stk.map BNode.size).sum ≤ fuel := by simp only [BNode.size] at hs; omega
        rw [queryLoop]
        simp only [List.getElem?_map, hti, Option.map_some]
        rw [Triangle.closest_fin, Vec3.X_vsub, Vec3.X_vlength, X_lt, show (q.sub (t.closestPoint q)).length = t.distance q from rfl]
        by_cases hlt : t.distance q < d
        · rw [if_pos ((R_lt _ _).2 hlt)]
          obtain ⟨c, e, h⟩ := ih stk (t.distance q) (t.closestPoint q) hbs hs'
          refine ⟨c, e, Or.inr ?_⟩
          rcases h with ⟨rfl, h⟩ | ⟨n', hn', j, hj, t', ht', rfl, hlt', hmin⟩
          · refine ⟨.leaf b.fin i, by simp, i, by simp [BNode.leaves], t, hti, rfl, hlt, ?_⟩
            intro n' hn' j hj t' ht'
            rcases List.mem_cons.1 hn' with rfl | hn'
            · simp only [BNode.leaves, List.mem_singleton] at hj
              subst hj; rw [hti] at ht'; rw [Option.some.inj ht']
            · exact h n' hn' j hj t' ht'
          · refine ⟨n', by simp [hn'], j, hj, t', ht', rfl, hlt'.trans hlt, ?_⟩
            intro n2 hn2 k hk t2 ht2
            rcases List.mem_cons.1 hn2 with rfl | hn2
            · simp only [BNode.leaves, List.mem_singleton] at hk
              subst hk; rw [hti] at ht2; rw [← Option.some.inj ht2]; exact hlt'.le
            · exact hmin n2 hn2 k hk t2 ht2
        · have hlt' : d ≤ t.distance q := not_lt.1 hlt
          rw [if_neg (by rw [R_lt]; exact hlt)]
          obtain ⟨c, e, h⟩ := ih stk d ret hbs hs'
          refine ⟨c, e, ?_⟩
          rcases h with ⟨rfl, h⟩ | ⟨n', hn', j, hj, t', ht', rfl, hlt2, hmin⟩
          · left
            refine ⟨rfl, ?_⟩
            intro n2 hn2 k hk t2 ht2
            rcases List.mem_cons.1 hn2 with rfl | hn2
            · simp only [BNode.leaves, List.mem_singleton] at hk
              subst hk; rw [hti] at ht2; rw [← Option.some.inj ht2]; exact hlt'
            · exact h n2 hn2 k hk t2 ht2
          · right
            refine ⟨n', by simp [hn'], j, hj, t', ht', rfl, hlt2, ?_⟩
            intro n2 hn2 k hk t2 ht2
            rcases List.mem_cons.1 hn2 with rfl | hn2
            · simp only [BNode.leaves, List.mem_singleton] at hk
              subst hk; rw [hti] at ht2; rw [← Option.some.inj ht2]; exact hlt2.le.trans hlt'
            · exact hmin n2 hn2 k hk t2 ht2
      | _, @BNode.Boxed.fork _ b l r a hbl hbr hsub =>
        simp only [BNode.size] at hs
        rw [queryLoop, Bounds.inside_fin, Bounds.distance_fin, X_le]
        simp only [hbl.nonNull, hbr.nonNull, if_true]
        by_cases hgo : (b.inside q || Scalar.le (b.distance q) d) = true
        · rw [if_pos hgo]
          obtain ⟨c, e, h⟩ := ih (r :: l :: stk) d ret (by
            intro t ht
            rcases List.mem_cons.1 ht with rfl | ht
            · exact hbr
            · rcases List.mem_cons.1 ht with rfl | ht
              · exact hbl
              · exact hbs t ht) (by simp only [List.map_cons, List.sum_cons]; omega)
          refine ⟨c, e, ?_⟩
          have conv : ∀ P : Nat → Prop, (∀ n' ∈ r :: l :: stk, ∀ j ∈ n'.leaves, P j) →
              ∀ n' ∈ BNode.fork b.fin l r a :: stk, ∀ j ∈ n'.leaves, P j := by
            intro P h n' hn' j hj
            rcases List.mem_cons.1 hn' with rfl | hn'
            · rcases List.mem_append.1 hj with hj | hj
              · exact h l (by simp) j hj
              · exact h r (by simp) j hj
            · exact h n' (by simp [hn']) j hj
          rcases h with ⟨rfl, h⟩ | ⟨n', hn', j, hj, t', ht', rfl, hlt2, hmin⟩
          · exact Or.inl ⟨rfl, conv (fun j => ∀ t, ts[j]? = some t → d ≤ t.distance q) h⟩
          · right
            have hmem : ∃ n'' ∈ BNode.fork b.fin l r a :: stk, j ∈ n''.leaves := by
              rcases List.mem_cons.1 hn' with rfl | hn'
              · exact ⟨_, List.mem_cons_self, List.mem_append_right _ hj⟩
              · rcases List.mem_cons.1 hn' with rfl | hn'
                · exact ⟨_, List.mem_cons_self, List.mem_append_left _ hj⟩
                · exact ⟨n', List.mem_cons_of_mem _ hn', hj⟩
            obtain ⟨n'', hn'', hj''⟩ := hmem
            exact ⟨n'', hn'', j, hj'', t', ht', rfl, hlt2,
              conv (fun j => ∀ t'', ts[j]? = some t'' → t'.distance q ≤ t''.distance q) hmin⟩
        · rw [if_neg hgo]
          have hd : d < b.distance q := by
            by_contra hc
            exact hgo (by rw [Bool.or_eq_true]; exact Or.inr ((R_le _ _).2 (not_lt.1 hc)))
          have hfar : ∀ j ∈ l.leaves ++ r.leaves, ∀ t', ts[j]? = some t' → d ≤ t'.distance q := by
            intro j hj t' ht'
            have h1 := hsub j hj t' ht' (t'.closest_mem q)
            have h2 := b.distance_le q h1
            rw [Vec3.E_dist] at h2
            exact hd.le.trans h2
          obtain ⟨c, e, h⟩ := ih stk d ret hbs (by omega)
          refine ⟨c, e, ?_⟩
          rcases h with ⟨rfl, h⟩ | ⟨n', hn', j, hj, t', ht', rfl, hlt2, hmin⟩
          · left
            refine ⟨rfl, ?_⟩
            intro n2 hn2 k hk t2 ht2
            rcases List.mem_cons.1 hn2 with rfl | hn2
            · exact hfar k hk t2 ht2
            · exact h n2 hn2 k hk t2 ht2
          · right
            refine ⟨n', by simp [hn'], j, hj, t', ht', rfl, hlt2, ?_⟩
            intro n2 hn2 k hk t2 ht2
            rcases List.mem_cons.1 hn2 with rfl | hn2
            · exact hlt2.le.trans (hfar k hk t2 ht2)
            · exact hmin n2 hn2 k hk t2 ht2

/-- a query answers with the nearest of the reported points -/
theorem bvh_query {ts : List (Triangle ℝ)} {root : BNode XR} (hb : root.Boxed ts)
    (hall : ∀ i, i < ts.length → i ∈ root.leaves) (q : Vec3 ℝ) (hnear : ∃ t ∈ ts, t.distance q < 10 ^ 20) :
    ∃ t ∈ ts, bvhClosest ⟨root, ts.map Triangle.fin⟩ q.fin = .ok (t.closestPoint q).fin ∧
      bvhDistance ⟨root, ts.map Triangle.fin⟩ q.fin = .ok (.fin (t.distance q)) ∧
      ∀ t' ∈ ts, t.distance q ≤ t'.distance q := by
  obtain ⟨c, e, h⟩ := query_ok (ts := ts) q root.size [root] (Scalar.lit (10 ^ 20) 1) Vec3.zero (by simpa using hb) (by simp)
  have hlit : (Scalar.lit (10 ^ 20) 1 : ℝ) = 10 ^ 20 := by rw [R_lit]; norm_num
  have idx : ∀ t ∈ ts, ∃ i ∈ root.leaves, ts[i]? = some t := by
    intro t ht
    obtain ⟨i, hi⟩ := List.mem_iff_getElem?.1 ht
    exact ⟨i, hall i (List.getElem?_eq_some_iff.1 hi).1, hi⟩
  have key : ∃ t ∈ ts, c = t.closestPoint q ∧ ∀ t' ∈ ts, t.distance q ≤ t'.distance q := by
    rcases h with ⟨-, h⟩ | ⟨n, hn, i, hi, t, ht, hc, -, hmin⟩
    · exfalso
      obtain ⟨t, ht, hlt⟩ := hnear
      obtain ⟨i, hi, hit⟩ := idx t ht
      have := h root (by simp) i hi t hit
      rw [hlit] at this
      linarith
    · refine ⟨t, List.mem_iff_getElem?.2 ⟨i, ht⟩, hc, ?_⟩
      intro t' ht'
      obtain ⟨j, hj, hjt⟩ := idx t' ht'
      exact hmin root (by simp) j hj t' hjt
  obtain ⟨t, ht, rfl, hmin⟩ := key
  have e' : bvhClosest ⟨root, ts.map Triangle.fin⟩ q.fin = .ok (t.closestPoint q).fin := e
  refine ⟨t, ht, e', ?_, hmin⟩
  unfold bvhDistance
  rw [e']
  show Except.ok (((t.closestPoint q).fin.sub q.fin).length) = _
  rw [Vec3.X_vsub, Vec3.X_vlength, Vec3.length_sub_comm]
  rfl

theorem readTris_fin (V : List (Vec3 ℝ)) : ∀ (I : List Nat), I.length % 3 = 0 → (∀ i ∈ I, i < V.length) →
    ∃ ts : List (Triangle ℝ), readTris (V.map Vec3.fin) I = .ok (ts.map Triangle.fin) ∧ readTris V I = .ok ts ∧
      ts.length = I.length / 3
  | [], _, _ => ⟨[], rfl, rfl, rfl⟩
  | [_], h, _ => by simp at h
  | [_, _], h, _ => by simp at h
  | i0 :: i1 :: i2 :: I, h, hi => by
    obtain ⟨ts, h1, h2, h3⟩ := readTris_fin V I (by simp at h; omega) (fun i hi' => hi i (by simp [hi']))
    have g0 := hi i0 (by simp)
    have g1 := hi i1 (by simp)
    have g2 := hi i2 (by simp)
    refine ⟨⟨V[i0], V[i1], V[i2]⟩ :: ts, ?_, ?_, ?_⟩
    · rw [readTris]
      simp only [List.getElem?_map, List.getElem?_eq_getElem g0, List.getElem?_eq_getElem g1, List.getElem?_eq_getElem g2,
        Option.map_some, h1]
      rfl
    · rw [readTris]
      simp only [List.getElem?_eq_getElem g0, List.getElem?_eq_getElem g1, List.getElem?_eq_getElem g2, h2]
      rfl
    · simp only [List.length_cons, h3]; omega

/-- the tree over a list of triangles -/
theorem bvh_build {lib : Lib XR} (std : lib.Std) {V : List (Vec3 ℝ)} {I : List Nat} (h3 : I.length % 3 = 0)
    (hi : ∀ i ∈ I, i < V.length) {ts : List (Triangle ℝ)} (hts : readTris V I = .ok ts) :
    ∃ root, bvhConstruct lib (V.map Vec3.fin) I = .ok ⟨root, ts.map Triangle.fin⟩ ∧
      (ts = [] → root = .null) ∧ (ts ≠ [] → root.Boxed ts ∧ root.leaves.Perm (List.range ts.length)) := by
  obtain ⟨ts', e1, e2, e3⟩ := readTris_fin V I h3 hi
  rw [e2] at hts
  obtain rfl := Except.ok.inj hts
  unfold bvhConstruct
  rw [e1]
  obtain ⟨k1, k2⟩ := constructRec_ok std (ts := ts') ((ts'.map Triangle.fin).length + 1) (primsOf (ts'.map Triangle.fin))
    (by rw [← List.length_map (f := Prim.idx), prims_idx]; simp) (prims_of ts')
  have hidx := prims_idx (ts'.map Triangle.fin)
  by_cases hnil : ts' = []
  · subst hnil
    refine ⟨.null, ?_, fun _ => rfl, fun h => absurd rfl h⟩
    rfl
  · have hne : primsOf (ts'.map Triangle.fin) ≠ [] := by
      intro h
      rw [h] at hidx
      have := congrArg List.length hidx
      simp at this
      exact hnil (List.length_eq_zero_iff.1 (by omega))
    obtain ⟨t, e, hb, hp⟩ := k2 hne
    refine ⟨t, ?_, fun h => absurd h hnil, fun _ => ⟨hb, ?_⟩⟩
    · show (constructRec lib _ (primsOf (ts'.map Triangle.fin))).bind _ = _
      rw [e]
      rfl
    · rw [hidx] at hp
      simpa using hp

end TinyMesh
