import Verif.Proof.CloneC
/-
A mesh with two holes at a vertex does not describe a manifold triangle list, and cannot be cloned.
-/
set_option linter.unusedSimpArgs false
namespace TinyMesh
open Orbit
variable {F : Type} {m m' : Mesh F}

theorem shares_edge {K : List Tri} (nd : (K.flatMap Tri.edges).Nodup) {u w : Tri} (hu : u ∈ K) (hw : w ∈ K) {e : Nat × Nat}
    (h1 : e ∈ u.edges) (h2 : e ∈ w.edges) : u = w := by
  by_contra hne
  have hp := (List.nodup_flatMap.1 nd).2
  have hs : Std.Symm (Function.onFun List.Disjoint Tri.edges) := ⟨fun a b (h : List.Disjoint a.edges b.edges) => h.symm⟩
  have := hp.forall hu hw hne
  exact this h1 h2

theorem Rename.nodup {K : List Tri} {φ : Nat → Nat} {g : Tri → Tri} (R : Rename K φ g) (nd : (K.flatMap Tri.edges).Nodup) :
    ((K.map g).flatMap Tri.edges).Nodup := by
  rw [R.flatMap_perm.nodup_iff]
  refine nd.map_on ?_
  rintro ⟨a, b⟩ h ⟨c, d⟩ h' e
  obtain ⟨t, ht, hte⟩ := List.mem_flatMap.1 h
  obtain ⟨s, hs, hse⟩ := List.mem_flatMap.1 h'
  simp only [Prod.mk.injEq] at e ⊢
  exact ⟨R.inj t ht s hs a c ((t.has_iff a).2 ⟨b, hte⟩) ((s.has_iff c).2 ⟨d, hse⟩) e.1,
    R.inj t ht s hs b d ((t.has_iff' b).2 ⟨a, hte⟩) ((s.has_iff' d).2 ⟨c, hse⟩) e.2⟩

theorem Rename.proper {K : List Tri} {φ : Nat → Nat} {g : Tri → Tri} (R : Rename K φ g) (hp : ∀ t ∈ K, t.proper) :
    ∀ t ∈ K.map g, t.proper := by
  intro t' ht'
  obtain ⟨t, ht, rfl⟩ := List.mem_map.1 ht'
  rw [proper_iff_edges]
  rintro ⟨x, y⟩ he hxy
  obtain ⟨a, b, h, h1, h2⟩ := (R.mem ht).1 he
  have hab : a ≠ b := (proper_iff_edges t).1 (hp t ht) (a, b) h
  exact hab (R.inj t ht t ht a b ((t.has_iff a).2 ⟨b, h⟩) ((t.has_iff' b).2 ⟨a, h⟩) (by rw [h1, h2]; exact hxy))

/-- renaming does not join fans -/
theorem Rename.fan_back {K : List Tri} {φ : Nat → Nat} {g : Tri → Tri} (R : Rename K φ g) (nd : (K.flatMap Tri.edges).Nodup)
    {t0 : Tri} (h0 : t0 ∈ K) {a : Nat} (ha : t0.has a) (hf : SingleFan (K.map g) (φ a)) : SingleFan K a := by
  have ginj : ∀ u ∈ K, ∀ w ∈ K, g u = g w → u = w := by
    intro u hu w hw e
    have h1 : (u.a, u.b) ∈ u.edges := by simp [Tri.edges]
    have h2 := (R.mem hu).2 ⟨u.a, u.b, h1, rfl, rfl⟩
    rw [e] at h2
    have := (R.mem_iff hu hw (Or.inl rfl) (Or.inr (Or.inl rfl))).1 h2
    exact shares_edge nd hu hw h1 this
  intro t s ht hs hta hsa
  have key : ∀ x y, Relation.EqvGen (FanStep (K.map g) (φ a)) x y → x = y ∨
      ∃ u ∈ K, ∃ w ∈ K, g u = x ∧ g w = y ∧ Relation.EqvGen (FanStep K a) u w := by
    intro x y h
    induction h with
    | rel x y h =>
      obtain ⟨hx, hy, c, h1, h2⟩ := h
      obtain ⟨u, hu, rfl⟩ := List.mem_map.1 hx
      obtain ⟨w, hw, rfl⟩ := List.mem_map.1 hy
      obtain ⟨a1, c1, q1, q2, q3⟩ := (R.mem hu).1 h1
      obtain ⟨c2, a2, q4, q5, q6⟩ := (R.mem hw).1 h2
      have := R.inj u hu t0 h0 a1 a ((u.has_iff a1).2 ⟨c1, q1⟩) ha q2
      subst a1
      have := R.inj w hw t0 h0 a2 a ((w.has_iff' a2).2 ⟨c2, q4⟩) ha q6
      subst a2
      have := R.inj w hw u hu c2 c1 ((w.has_iff c2).2 ⟨a, q4⟩) ((u.has_iff' c1).2 ⟨a, q1⟩) (by rw [q5, q3])
      subst c2
      exact Or.inr ⟨u, hu, w, hw, rfl, rfl, .rel _ _ ⟨hu, hw, c1, q1, q4⟩⟩
    | refl x => exact Or.inl rfl
    | symm x y _ ih =>
      rcases ih with rfl | ⟨u, hu, w, hw, e1, e2, h⟩
      · exact Or.inl rfl
      · exact Or.inr ⟨w, hw, u, hu, e2, e1, .symm _ _ h⟩
    | trans x y z _ _ ih1 ih2 =>
      rcases ih1 with rfl | ⟨u, hu, w, hw, e1, e2, h⟩
      · exact ih2
      · rcases ih2 with rfl | ⟨u', hu', w', hw', e1', e2', h'⟩
        · exact Or.inr ⟨u, hu, w, hw, e1, e2, h⟩
        · have := ginj w hw u' hu' (by rw [e2, e1'])
          subst this
          exact Or.inr ⟨u, hu, w', hw', e1, e2', .trans _ _ _ h h'⟩
  have hm : ∀ u ∈ K, u.has a → (g u).has (φ a) := fun u hu h => (R.has hu).2 ⟨a, h, rfl⟩
  rcases key _ _ (hf (g t) (g s) (List.mem_map_of_mem ht) (List.mem_map_of_mem hs) (hm t ht hta) (hm s hs hsa)) with
    e | ⟨u, hu, w, hw, e1, e2, h⟩
  · rw [ginj t ht s hs e]; exact .refl _
  · rw [← ginj u hu t ht e1, ← ginj w hw s hs e2]; exact h

theorem Mesh.Good.proper_shown (g : m.Good) : ∀ t ∈ m.shown, t.proper := by
  have w := g.wf
  intro t ht
  obtain ⟨f, af, hf, rfl⟩ := (mem_shown w).1 ht
  rw [Rename.proper_iff_edges]
  intro e he
  obtain ⟨x, ax, _, rfl⟩ := (mem_corners g af hf).1 he
  intro e
  exact g.simple.no_loop x ax (w.vn_inj (w.src_alive _ ax) (w.src_alive _ (w.next_alive _ ax)) e)

/-- two holes at a vertex separate two fans -/
theorem Mesh.Good.two_fans (g : m.Good) (na : m.NoAlone) {h h' : Nat} (ah : m.HA h) (ah' : m.HA h')
    (e : m.hSrc h = m.hSrc h') (hh : m.AtHole h) (hh' : m.AtHole h') (ne : h ≠ h') : ¬ SingleFan m.shown (m.vn (m.hSrc h)) := by
  have w := g.wf
  have nd := g.edges_shown
  -- triangles reached from `h` without crossing a hole
  let Q : Nat → Prop := fun x => ∃ n, m.sig^[n + 1] h = x ∧ ∀ i, i ≤ n → ¬ m.AtHole (m.sig^[i + 1] h)
  have nhs : ∀ x, m.HA x → m.AtHole x → ¬ m.AtHole (m.sig x) := by
    intro x ax hx
    have : m.hFace (m.sig x) = m.hFace (m.hRev x) := w.face_next _ (w.rev_alive _ ax)
    unfold Mesh.AtHole
    rw [this]
    exact na x ax hx
  have Qsucc : ∀ x, Q x → ¬ m.AtHole (m.sig x) → Q (m.sig x) := by
    rintro x ⟨n, rfl, hn⟩ hx
    refine ⟨n + 1, by rw [Function.iterate_succ_apply'], ?_⟩
    intro i hi
    rcases Nat.lt_or_ge i (n + 1) with c | c
    · exact hn i (by omega)
    · have : i = n + 1 := by omega
      subst this
      rw [Function.iterate_succ_apply']; exact hx
  have Qpred : ∀ x, m.HA x → ¬ m.AtHole x → Q (m.sig x) → Q x := by
    rintro x ax hx ⟨n, e1, hn⟩
    rw [Function.iterate_succ_apply'] at e1
    have := w.permSig.inj _ _ (w.permSig.iter ah n) ax e1
    cases n with
    | zero => exact absurd (by rw [← this]; exact hh) hx
    | succ n => exact ⟨n, this, fun i hi => hn i (by omega)⟩
  -- the corner of a triangle at the vertex
  have corner : ∀ f, m.fAlive f = true → ¬ m.HoleFace f → ∀ x y, m.HA x → m.HA y → m.hFace x = f → m.hFace y = f →
      m.hSrc x = m.hSrc y → x = y := by
    intro f af hf x y ax ay ex ey es
    have t := g.tri_of_not_hole af hf ax ex
    rcases w.tri_face ax t ay (by rw [ex, ey]) with h1 | h1 | h1
    · exact h1.symm
    · exact absurd (by rw [es, h1]) (g.simple.no_loop x ax)
    · have h2 := g.simple.no_loop _ ay
      rw [h1, show m.hNext (m.hNext (m.hNext x)) = x from t] at h2
      rw [h1] at es
      exact absurd es.symm h2
  let P : Tri → Prop := fun t => ∃ x, m.HA x ∧ m.hSrc x = m.hSrc h ∧ ¬ m.AtHole x ∧ m.corners (m.hFace x) = t ∧ Q x
  have cinj : ∀ x y, m.HA x → m.HA y → ¬ m.AtHole x → ¬ m.AtHole y → m.hSrc x = m.hSrc y →
      m.corners (m.hFace x) = m.corners (m.hFace y) → x = y := by
    intro x y ax ay hx hy es ec
    have h1 := (mem_corners g (w.face_alive _ ax) hx).2 ⟨x, ax, rfl, rfl⟩
    rw [ec] at h1
    obtain ⟨z, az, ez, hz⟩ := (mem_corners g (w.face_alive _ ay) hy).1 h1
    have := g.dir_inj az ax hz
    subst this
    exact corner _ (w.face_alive _ ay) hy z y az ay ez rfl es
  have step : ∀ t s, FanStep m.shown (m.vn (m.hSrc h)) t s → (P t ↔ P s) := by
    rintro t s ⟨ht, hs, u, h1, h2⟩
    obtain ⟨f, af, hf, rfl⟩ := (mem_shown w).1 ht
    obtain ⟨k, ak, hk, rfl⟩ := (mem_shown w).1 hs
    obtain ⟨x, ax, ex, dx⟩ := (mem_corners g af hf).1 h1
    obtain ⟨y, ay, ey, dy⟩ := (mem_corners g ak hk).1 h2
    simp only [Mesh.dir, Prod.mk.injEq] at dx dy
    have ar := w.rev_alive _ ax
    have e1 := w.src_rev _ ax
    have e2 := w.src_rev _ ar
    rw [w.rev_rev _ ax] at e2
    have : m.hRev x = y := g.dir_inj ar ay (by simp only [Mesh.dir, e1, ← e2]; rw [dx.1, dx.2, dy.1, dy.2])
    have sx : m.hSrc x = m.hSrc h := w.vn_inj (w.src_alive _ ax) (w.src_alive _ ah) dx.1
    have fs : m.hFace (m.sig x) = k := by
      rw [← ey, ← this]; exact w.face_next _ ar
    have hx : ¬ m.AtHole x := by unfold Mesh.AtHole; rw [ex]; exact hf
    have hsx : ¬ m.AtHole (m.sig x) := by unfold Mesh.AtHole; rw [fs]; exact hk
    constructor
    · rintro ⟨z, az, sz, hz, cz, qz⟩
      have := cinj z x az ax hz hx (by rw [sz, sx]) (by rw [cz, ex])
      subst this
      exact ⟨m.sig z, w.sig_alive ax, by rw [w.sig_src ax, sx], hsx, by rw [fs], Qsucc _ qz hsx⟩
    · rintro ⟨z, az, sz, hz, cz, qz⟩
      have := cinj z (m.sig x) az (w.sig_alive ax) hz hsx (by rw [sz, w.sig_src ax, sx]) (by rw [cz, fs])
      subst this
      exact ⟨x, ax, sx, hx, by rw [ex], Qpred _ ax hx qz⟩
  have inv : ∀ t s, Relation.EqvGen (FanStep m.shown (m.vn (m.hSrc h))) t s → (P t ↔ P s) := by
    intro t s h
    induction h with
    | rel t s h => exact step t s h
    | refl => exact Iff.rfl
    | symm _ _ _ ih => exact ih.symm
    | trans _ _ _ _ _ ih1 ih2 => exact ih1.trans ih2
  intro sf
  have n1 := nhs h ah hh
  have n2 := nhs h' ah' hh'
  have a1 := w.sig_alive ah
  have a2 := w.sig_alive ah'
  have s1 := w.sig_src ah
  have s2 := w.sig_src ah'
  have := inv _ _ (sf (m.corners (m.hFace (m.sig h))) (m.corners (m.hFace (m.sig h')))
    ((mem_shown w).2 ⟨_, w.face_alive _ a1, n1, rfl⟩) ((mem_shown w).2 ⟨_, w.face_alive _ a2, n2, rfl⟩)
    ((has_corners g (w.face_alive _ a1) n1).2 ⟨_, a1, rfl, by rw [s1]⟩)
    ((has_corners g (w.face_alive _ a2) n2).2 ⟨_, a2, rfl, by rw [s2, e]⟩))
  obtain ⟨z, az, sz, hz, cz, n, q1, q2⟩ := this.1 ⟨m.sig h, a1, s1, n1, rfl, 0, rfl, by
    intro i hi
    have : i = 0 := by omega
    subst this
    exact n1⟩
  have := cinj z (m.sig h') az a2 hz n2 (by rw [sz, s2, e]) cz
  subst this
  rw [Function.iterate_succ_apply'] at q1
  have := w.permSig.inj _ _ (w.permSig.iter ah n) ah' q1
  cases n with
  | zero => exact ne this
  | succ n => exact q2 n (by omega) (by rw [this]; exact hh')

section
variable [Scalar F]

/-- What becomes of a triangle list that is built again. -/
theorem rebuild_cases (L : EqLaw F) {P V : List (Vec3 F)} {K : List Tri} (nd : (K.flatMap Tri.edges).Nodup)
    (hp : ∀ t ∈ K, t.proper) (range : ∀ t ∈ K, t.inRange V.length) (DV : Distinct V) {m : Mesh F} (O : Owned m)
    (hi : m.indices = []) :
    (¬ Fits m.grow m.hCap K → construct V (ofTris (K.map Tri.rot)) m = .err .ub) ∧
    (Fits m.grow m.hCap K → (∃ t ∈ K, ∃ a, t.has a ∧ ¬ SingleFan K a) →
      construct V (ofTris (K.map Tri.rot)) m = .err .abort) := by
  have hmem : ∀ i, i ∈ ofTris (K.map Tri.rot) ↔ ∃ t ∈ K, t.has i := by
    intro i
    rw [mem_ofTris]
    constructor
    · rintro ⟨t', ht', h⟩
      obtain ⟨t, ht, rfl⟩ := List.mem_map.1 ht'
      refine ⟨t, ht, ?_⟩
      rcases h with h | h | h
      · exact Or.inr (Or.inr h)
      · exact Or.inl h
      · exact Or.inr (Or.inl h)
    · rintro ⟨t, ht, h⟩
      refine ⟨_, List.mem_map_of_mem ht, ?_⟩
      rcases h with h | h | h
      · exact Or.inr (Or.inl h)
      · exact Or.inr (Or.inr h)
      · exact Or.inl h
  have hr : ∀ i ∈ ofTris (K.map Tri.rot), i < V.length := by
    intro i h
    obtain ⟨t, ht, h⟩ := (hmem i).1 h
    obtain ⟨h1, h2, h3⟩ := range t ht
    rcases h with h | h | h <;> omega
  have hv : ValidInput V (ofTris (K.map Tri.rot)) := by
    intro i h
    have := List.getElem?_eq_getElem (hr i h)
    exact ⟨_, this, DV.self _ (List.mem_of_getElem? this)⟩
  obtain ⟨mD, J, _, _, _, _, _, _, _, hM⟩ := construct_reduce O hr
  have D := hM hv
  obtain ⟨φ, rfl, hφ, hinj⟩ := D.renumber L DV
  rw [ofTris_map] at D
  have R1 := Rename.of_rot K
  have R2 : Rename (K.map Tri.rot) φ (Tri.ren φ) := Rename.of_ren (by
    intro t ht s hs x y hx hy e
    exact hinj x ((mem_ofTris _).2 ⟨t, ht, hx⟩) y ((mem_ofTris _).2 ⟨s, hs, hy⟩) e)
  have nd1 := R1.nodup nd
  have nd2 := R2.nodup nd1
  have p2 := R2.proper (R1.proper hp)
  have hnd : ∀ t ∈ (K.map Tri.rot).map (Tri.ren φ), t.degen = false := fun t ht => (t.proper_iff).1 (p2 t ht)
  have e1 := dropDegen_id _ hnd
  have e2 : keepTris [] ((K.map Tri.rot).map (Tri.ren φ)) = (K.map Tri.rot).map (Tri.ren φ) := by
    have := keepTris_id _ [] (by simpa using nd2)
    simpa using this
  have fits : Fits m.grow m.hCap ((K.map Tri.rot).map (Tri.ren φ)) ↔ Fits m.grow m.hCap K := by
    unfold Fits
    rw [R2.boundaryCount, R1.boundaryCount]
    simp
  have := construct_cases L O hi hv D (by rw [e1]; exact hnd)
  rw [e1, e2] at this
  rcases this with ⟨mE, m', h1, h2, h3, h4, h5, B⟩ | ⟨h1, h2⟩ | ⟨h1, _, _, h4⟩
  · have hf : Fits m.grow m.hCap K := by
      have := B.cap
      rw [h4, h5] at this
      exact fits.1 this
    refine ⟨fun h => absurd hf h, fun _ ⟨t, ht, a, ha, nf⟩ => absurd ?_ nf⟩
    refine R1.fan_back nd ht ha (R2.fan_back nd1 (t0 := t.rot) (List.mem_map_of_mem ht) (a := a) ?_ ?_)
    · exact (R1.has ht).2 ⟨a, ha, rfl⟩
    · have hu := (hφ a ((hmem a).2 ⟨t, ht, ha⟩))
      rw [List.getElem?_eq_getElem hu.2] at hu
      refine B.fan (φ a) ?_
      have := (List.getElem?_eq_some_iff.1 hu.1).1
      rw [h3]; exact this
  · refine ⟨fun _ => h1, fun hf => absurd hf ?_⟩
    rcases h2 with ⟨a, ha, h⟩ | h
    · exfalso
      obtain ⟨k, c, _, _, hJ, _⟩ := D.first a _ (List.getElem?_eq_getElem ha)
      obtain ⟨t, ht, hta⟩ := (mem_ofTris _).1 (List.mem_of_getElem? hJ)
      exact h t ht hta
    · exact fun hf => h (fits.2 hf)
  · exact ⟨fun h => absurd (fits.1 h4) h, fun _ _ => h1⟩

theorem Mesh.Good.clone_bad (L : EqLaw F) (g : m.Good) (na : m.NoAlone) (D : Distinct (m.vs.map m.vPos)) (grow : Nat → Nat) :
    (¬ Fits grow 0 m.shown → clone grow m = .err .ub) ∧
    (Fits grow 0 m.shown → ¬ m.OneHole → clone grow m = .err .abort) := by
  have w := g.wf
  have e : clone grow m = construct (m.vs.map m.vPos) (ofTris (m.shown.map Tri.rot)) (Mesh.empty grow) := by
    unfold clone
    rw [w.getVertices_ok, report_shown w g]
    simp only [flatIdx_map]
  rw [e]
  obtain ⟨h1, h2⟩ := rebuild_cases L (P := m.vs.map m.vPos) g.edges_shown g.proper_shown
    (fun t ht => by rw [List.length_map]; exact g.range_shown ht) D (Owned.empty grow) (m := Mesh.empty grow) rfl
  refine ⟨h1, fun hf no => h2 hf ?_⟩
  unfold Mesh.OneHole at no
  push Not at no
  obtain ⟨h, h', ah, ah', es, hh, hh', ne⟩ := no
  have n1 : ¬ m.AtHole (m.sig h) := by
    have : m.hFace (m.sig h) = m.hFace (m.hRev h) := w.face_next _ (w.rev_alive _ ah)
    unfold Mesh.AtHole
    rw [this]
    exact na h ah hh
  have a1 := w.sig_alive ah
  exact ⟨_, (mem_shown w).2 ⟨_, w.face_alive _ a1, n1, rfl⟩, _,
    (has_corners g (w.face_alive _ a1) n1).2 ⟨_, a1, rfl, by rw [w.sig_src ah]⟩, g.two_fans na ah ah' es hh hh' ne⟩

end
end TinyMesh
