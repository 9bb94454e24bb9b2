/-
Property theorem C65: making the interaction matrix a second time with the same mirrors.
-/
import Verif.Props.Persist

namespace Soapy.Props

open Soapy.Mirror Soapy.Vec Soapy.Persist

theorem setValid_short {α : Type} (shapes : List α) (n : ℕ) (h : shapes.length < n) :
    ∃ e, setValid shapes (List.replicate n true) = .error e := by
  have go : ∀ (n i : ℕ), shapes.length < i + n → i ≤ shapes.length →
      ∃ e, setValid.go shapes i (List.replicate n true) = .error e := by
    intro n
    induction n with
    | zero => intro i h1 h2; omega
    | succ n ih =>
      intro i h1 h2
      rw [List.replicate_succ, setValid.go, if_pos rfl]
      by_cases hi : i < shapes.length
      · rw [List.getElem?_eq_getElem hi]
        obtain ⟨e, he⟩ := ih (i + 1) (by omega) (by omega)
        exact ⟨e, by dsimp only; rw [he]⟩
      · rw [List.getElem?_eq_none (by omega)]
        exact ⟨_, rfl⟩
  obtain ⟨e, he⟩ := go n 0 (by omega) (by omega)
  exact ⟨e, by unfold setValid; rw [he]⟩

theorem makeDmIMat_flags (n nMeas : ℕ) (surf : List ℚ → Except PyErr Arr2) (sense : Arr2 → List ℚ)
    (flags : List Bool) (rows : List (List ℚ)) (h : makeDmIMat n nMeas surf sense = .ok (flags, rows)) :
    flags.length = n := by
  unfold makeDmIMat at h
  cases hrows : (List.range n).mapM (pokeRow n surf sense) with
  | error e => rw [hrows] at h; cases h
  | ok im =>
    rw [hrows] at h
    dsimp only at h
    obtain ⟨hlen, _⟩ := mapM_ok_get _ _ _ hrows
    cases hv : validFlags im with
    | error e => rw [hv] at h; cases h
    | ok fl =>
      rw [hv] at h
      simp only [Except.ok.injEq, Prod.mk.injEq] at h
      obtain ⟨rfl, _⟩ := h
      unfold validFlags at hv
      cases hm : absMax im.flatten with
      | none => rw [hm] at hv; cases hv
      | some m =>
        rw [hm] at hv
        simp only [Except.ok.injEq] at hv
        rw [← hv]
        simpa using hlen

/-- If the very first poke raises, so does the measurement of the whole mirror. -/
theorem makeDmIMat_first (n nMeas : ℕ) (hn : 0 < n) (surf : List ℚ → Except PyErr Arr2)
    (sense : Arr2 → List ℚ) (e : PyErr) (h : surf (unit n 0) = .error e) :
    makeDmIMat n nMeas surf sense = .error e := by
  obtain ⟨k, rfl⟩ : ∃ k, n = k + 1 := ⟨n - 1, by omega⟩
  unfold makeDmIMat
  rw [List.range_succ_eq_map, List.mapM_cons]
  simp only [pokeRow, h, bind, Except.bind]

theorem dmFrame_congr (scrn n : ℕ) (rot : ℚ) (s s' : List Arr2) (screen : Arr2) (c c' : List ℚ)
    (h : makeDMFrame n s c = makeDMFrame n s' c') :
    dmFrame scrn n rot s screen c = dmFrame scrn n rot s' screen c' := by
  unfold dmFrame
  rw [h]

theorem stretch_two {α : Type} (xs : List α) (n : ℕ) (h : xs.length ≠ 1) : stretch xs n = xs := by
  match xs, h with
  | [], _ => rfl
  | [x], h => simp at h
  | _ :: _ :: _, _ => rfl

theorem unit_length (n i : ℕ) : (unit n i).length = n := by simp [unit, zeros]

theorem zipWith_replicate_unit (s : Arr2) (n i : ℕ) (hi : i < n) (p q : ℕ) :
    (List.zipWith (fun (s : Arr2) c => s.px p q * c) (List.replicate n s) (unit n i)).sum = s.px p q := by
  rw [zipWith_sum_range _ _ s _ _ (by simp [unit_length])]
  rw [List.length_replicate, Finset.sum_eq_single i]
  · rw [unit_getD n i i hi, if_pos rfl, List.getD_eq_getElem?_getD,
      List.getElem?_eq_getElem (by simpa using hi)]
    simp
  · intro k _ hk
    rw [unit_getD n i k hi, if_neg hk, zero_mul]
  · intro h; exact absurd (Finset.mem_range.mpr hi) h

theorem zipWith_unit (shapes : List Arr2) (a : ℕ) (s : Arr2) (hs : shapes[a]? = some s) (p q : ℕ) :
    (List.zipWith (fun (s : Arr2) c => s.px p q * c) shapes (unit shapes.length a)).sum = s.px p q := by
  have ha : a < shapes.length := by
    by_contra hc
    rw [List.getElem?_eq_none (by omega)] at hs; cases hs
  rw [zipWith_sum_range _ _ s _ _ (by simp [unit_length]), Finset.sum_eq_single a]
  · rw [unit_getD _ a a ha, if_pos rfl, List.getD_eq_getElem?_getD, hs]
    simp
  · intro k _ hk
    rw [unit_getD _ a k ha, if_neg hk, zero_mul]
  · intro h; exact absurd (Finset.mem_range.mpr ha) h

theorem unit_eq_map (n a : ℕ) (ha : a < n) :
    unit n a = (List.range n).map fun k => if k = a then 1 else 0 := by
  apply List.ext_getElem (by simp [unit_length])
  intro k h1 h2
  have := unit_getD n a k ha
  rw [List.getD_eq_getElem?_getD, List.getElem?_eq_getElem h1] at this
  simpa using this

/-- A mirror that has lost an actuator cannot be measured again. -/
theorem again_mirror (scrn nElem nMeas : ℕ) (shapes : List Arr2) (z : Arr2) (sense : Arr2 → List ℚ)
    (flags : List Bool) (rows : List (List ℚ)) (n : ℕ) (kept : List Arr2)
    (h : makeDmIMat shapes.length nMeas (dmFrame scrn nElem 0 shapes z) sense = .ok (flags, rows))
    (hset : setValid shapes flags = .ok (n, kept)) (hf : false ∈ flags) :
    (∃ e, makeDmIMat shapes.length nMeas (dmFrame scrn nElem 0 kept z) sense = .error e) ∨
    ∃ fl rw e, makeDmIMat shapes.length nMeas (dmFrame scrn nElem 0 kept z) sense = .ok (fl, rw) ∧
      setValid kept fl = .error e := by
  have hflen := makeDmIMat_flags _ _ _ _ _ _ h
  obtain ⟨idx, kept', resp, m, hresp, hbound, _, hsorted, hmem, hset', hkl, _, halign⟩ :=
    C14_alignment nMeas shapes _ sense flags rows h
  rw [hset] at hset'
  simp only [Except.ok.injEq, Prod.mk.injEq] at hset'
  obtain ⟨hn, rfl⟩ := hset'
  have hcount : n = flags.count true := setValid_count _ _ _ _ hset
  have hlt : idx.length < shapes.length := by
    rw [← hn, hcount, ← hflen]
    refine lt_of_le_of_ne List.count_le_length fun hc => ?_
    have := List.count_eq_length.mp hc false hf
    cases this
  rcases Nat.lt_or_ge idx.length 1 with h0 | h1
  · -- nothing left
    left
    have hk : kept = [] := List.length_eq_zero_iff.mp (by omega)
    subst hk
    have herr : ∃ e, dmFrame scrn nElem 0 [] z (unit shapes.length 0) = .error e := by
      have hmk : ∃ e, makeDMFrame nElem [] (unit shapes.length 0) = .error e := by
        unfold makeDMFrame
        dsimp only
        split_ifs
        · exact ⟨_, rfl⟩
        · exact ⟨_, rfl⟩
        · simp_all
      obtain ⟨e, he⟩ := hmk
      exact ⟨e, by unfold dmFrame; rw [he]⟩
    obtain ⟨e, he⟩ := herr
    exact ⟨e, makeDmIMat_first _ _ (by omega) _ _ _ he⟩
  · rcases Nat.lt_or_ge idx.length 2 with h2 | h2
    · -- exactly one shape: it is used for every actuator
      right
      obtain ⟨a, rfl⟩ : ∃ a, idx = [a] := List.length_eq_one_iff.mp (by omega)
      obtain ⟨s, rfl⟩ : ∃ s, kept = [s] := List.length_eq_one_iff.mp (by simpa using hkl)
      have ha := (hmem a).mp (by simp)
      obtain ⟨haN, x, hx, hxm⟩ := ha
      have hsa : shapes[a]? = some s := by
        have := (halign 0 a (by simp)).1
        simpa using this.symm
      set N := shapes.length with hN
      have hN2 : 2 ≤ N := by simp at hlt; omega
      obtain ⟨sf, hsf, hra⟩ := hresp a haN
      have hframe : ∀ i, i < N → dmFrame scrn nElem 0 [s] z (unit N i) = .ok sf := by
        intro i hi
        rw [← hsf, ← unit_eq_map N a haN]
        apply dmFrame_congr
        unfold makeDMFrame
        have e1 : stretch [s] (unit N i).length = List.replicate N s := by rw [unit_length]; rfl
        have e2 : stretch (unit N i) [s].length = unit N i := stretch_two _ _ (by rw [unit_length]; omega)
        have e3 : stretch shapes (unit N a).length = shapes := stretch_two _ _ (by omega)
        have e4 : stretch (unit N a) shapes.length = unit N a := stretch_two _ _ (by rw [unit_length]; omega)
        simp only [e1, e2, e3, e4]
        rw [if_neg (by simp [unit_length]), if_neg (by simp), if_neg (by simp [unit_length, hN]),
          if_neg (by
            intro hc
            rw [List.isEmpty_iff] at hc
            rw [hc] at hN; simp at hN; omega)]
        congr 1
        congr 1
        funext p q
        rw [zipWith_replicate_unit s N i hi, hN, zipWith_unit shapes a s hsa]
      have hpoke : ∀ i, i < N → pokeRow N (dmFrame scrn nElem 0 [s] z) sense i = .ok (resp a) := by
        intro i hi
        unfold pokeRow
        rw [hframe i hi, hra]
        simp
      have hmap : (List.range N).mapM (pokeRow N (dmFrame scrn nElem 0 [s] z) sense) =
          .ok (List.replicate N (resp a)) := by
        have gen : ∀ l : List ℕ, (∀ i ∈ l, i < N) →
            l.mapM (pokeRow N (dmFrame scrn nElem 0 [s] z) sense) =
              (.ok (List.replicate l.length (resp a)) : Except PyErr _) := by
          intro l
          induction l with
          | nil => intro _; rfl
          | cons y ys ih =>
            intro hl
            rw [List.mapM_cons, hpoke y (hl y (by simp)), ih fun i hi => hl i (by simp [hi])]
            rfl
        have := gen (List.range N) (by simp)
        simpa using this
      have hpos : 0 < |x| := by
        have : 0 ≤ m := le_trans (abs_nonneg x) (hbound a haN x hx)
        have : 0 ≤ m / 1000 := by positivity
        linarith
      have hvalid : validFlags (List.replicate N (resp a)) = .ok (List.replicate N true) := by
        unfold validFlags
        have hxin : |x| ∈ ((List.replicate N (resp a)).flatten).map abs :=
          List.mem_map.mpr ⟨x, List.mem_flatten.mpr ⟨resp a, by simp; omega, hx⟩, rfl⟩
        cases hM : absMax (List.replicate N (resp a)).flatten with
        | none =>
          unfold absMax at hM
          rw [List.max?_eq_none_iff] at hM
          rw [hM] at hxin; simp at hxin
        | some M =>
          unfold absMax at hM
          rw [List.max?_eq_some_iff] at hM
          obtain ⟨hM1, hM2⟩ := hM
          obtain ⟨y, hy, hyM⟩ := List.mem_map.mp hM1
          obtain ⟨row, hrow, hyr⟩ := List.mem_flatten.mp hy
          obtain rfl := (List.mem_replicate.mp hrow).2
          have hMpos : 0 < M := lt_of_lt_of_le hpos (hM2 _ hxin)
          dsimp only
          rw [List.map_replicate]
          congr 2
          cases hR : absMax (resp a) with
          | none =>
            unfold absMax at hR
            rw [List.max?_eq_none_iff, List.map_eq_nil_iff] at hR
            rw [hR] at hx; simp at hx
          | some R =>
            unfold absMax at hR
            rw [List.max?_eq_some_iff] at hR
            have : M ≤ R := by
              rw [← hyM]
              exact hR.2 _ (List.mem_map.mpr ⟨y, hyr, rfl⟩)
            simp only [decide_eq_true_eq]
            linarith
      obtain ⟨e, he⟩ := setValid_short [s] N (by simp; omega)
      refine ⟨List.replicate N true, compact (List.replicate N (resp a)) (List.replicate N true) 0
        (List.replicate ((List.replicate N true).count true) (zeros nMeas)), e, ?_, he⟩
      unfold makeDmIMat
      rw [hmap]
      dsimp only
      rw [hvalid]
    · -- several, but fewer than commands
      left
      refine ⟨.valueError, makeDmIMat_first _ _ (by omega) _ _ _ ?_⟩
      unfold dmFrame makeDMFrame
      rw [stretch_two kept _ (by omega), stretch_two (unit shapes.length 0) _ (by rw [unit_length]; omega)]
      simp only
      rw [if_pos (by rw [unit_length]; omega)]

/-- A list of flags without a false is all true. -/
theorem flags_all (flags : List Bool) (h : false ∉ flags) : flags = List.replicate flags.length true := by
  rw [List.eq_replicate_iff]
  refine ⟨rfl, fun b hb => ?_⟩
  cases b with
  | true => rfl
  | false => exact absurd hb h

/-- **C65 (partial: nothing dropped), and its failure otherwise.** Take mirrors as they come out of their constructors (one shape per actuator) and make the
interaction matrix; then make it a second time with the same mirrors.  If no actuator was dropped, the second run gives the same matrix and leaves the mirrors as they are; if any actuator of any mirror was dropped, the second run raises an exception.
Missing: the second run after dropping, which the property demands and the code does not deliver. -/
theorem C65_again_partial (cfg : Cfg) (sense : ℕ → Arr2 → List ℚ) (dms dms' : List Dm) (m : List (List ℚ))
    (hwf : ∀ d ∈ dms, d.shapes.length = d.nActs)
    (h : makeIMat cfg sense 0 dms = .ok (dms', m)) :
    ((∀ d ∈ dms', false ∉ d.valid) → makeIMat cfg sense 0 dms' = .ok (dms', m)) ∧
    ((∃ d ∈ dms', false ∈ d.valid) → ∃ e, makeIMat cfg sense 0 dms' = .error e) := by
  have gen : ∀ (dms dms' : List Dm) (k : ℕ) (m : List (List ℚ)), (∀ d ∈ dms, d.shapes.length = d.nActs) →
      makeIMat cfg sense k dms = .ok (dms', m) →
      ((∀ d ∈ dms', false ∉ d.valid) → makeIMat cfg sense k dms' = .ok (dms', m)) ∧
      ((∃ d ∈ dms', false ∈ d.valid) → ∃ e, makeIMat cfg sense k dms' = .error e) := by
    intro dms
    induction dms with
    | nil =>
      intro dms' k m _ h
      simp [makeIMat] at h
      obtain ⟨rfl, rfl⟩ := h
      simp [makeIMat]
    | cons d ds ih =>
      intro dms' k m hwf h
      rw [makeIMat] at h
      cases h1 : makeDmIMat d.nActs cfg.totalMeas
          (fun c => dmFrame cfg.scrn d.nElem 0 d.shapes (zero2 cfg.scrn) c) (sense k) with
      | error e => rw [h1] at h; cases h
      | ok p =>
        obtain ⟨flags, rows⟩ := p
        rw [h1] at h
        dsimp only at h
        cases h2 : setValid d.shapes flags with
        | error e => rw [h2] at h; cases h
        | ok q =>
          obtain ⟨n, kept⟩ := q
          rw [h2] at h
          dsimp only at h
          cases h3 : makeIMat cfg sense (k + 1) ds with
          | error e => rw [h3] at h; cases h
          | ok q =>
            obtain ⟨ds', rows'⟩ := q
            rw [h3] at h
            simp only [Except.ok.injEq, Prod.mk.injEq] at h
            obtain ⟨rfl, rfl⟩ := h
            obtain ⟨i1, i2⟩ := ih ds' (k + 1) rows' (fun x hx => hwf x (by simp [hx])) h3
            have hd : d.shapes.length = d.nActs := hwf d (by simp)
            have hfl := makeDmIMat_flags _ _ _ _ _ _ h1
            by_cases hf : false ∈ flags
            · -- this mirror fails
              refine ⟨fun hall => absurd hf (hall _ List.mem_cons_self), fun _ => ?_⟩
              have h1' := h1
              rw [← hd] at h1'
              rcases again_mirror cfg.scrn d.nElem cfg.totalMeas d.shapes (zero2 cfg.scrn) (sense k) flags rows n kept
                h1' h2 hf with ⟨e, he⟩ | ⟨fl, rw', e, he1, he2⟩
              · rw [hd] at he
                exact ⟨e, by rw [makeIMat]; dsimp only; rw [he]⟩
              · rw [hd] at he1
                exact ⟨e, by rw [makeIMat]; dsimp only; rw [he1]; dsimp only; rw [he2]⟩
            · -- this mirror is unchanged
              have hk : kept = d.shapes := by
                rw [flags_all flags hf, hfl, ← hd, setValid_all] at h2
                simp at h2
                exact h2.2.symm
              subst hk
              constructor
              · intro hall
                rw [makeIMat]
                dsimp only
                rw [h1]
                dsimp only
                rw [h2]
                dsimp only
                rw [i1 fun x hx => hall x (by simp [hx])]
              · rintro ⟨x, hx, hxf⟩
                have hx' : x ∈ ds' := by
                  rcases List.mem_cons.mp hx with rfl | hx
                  · exact absurd hxf hf
                  · exact hx
                obtain ⟨e, he⟩ := i2 ⟨x, hx', hxf⟩
                refine ⟨e, ?_⟩
                rw [makeIMat]
                dsimp only
                rw [h1]
                dsimp only
                rw [h2]
                dsimp only
                rw [he]
  exact gen dms dms' 0 m hwf h

/-- The toy mirror loses its second actuator; a second measurement fails. -/
theorem C65_violated :
    ((makeIMat toyCfg toySense 0 [toyDm]).map fun r => r.1.map Dm.valid) = .ok [[true, false, true]] ∧
    ((makeIMat toyCfg toySense 0 [toyDm]).bind fun r => (makeIMat toyCfg toySense 0 r.1).map fun _ => ()) =
      .error .valueError := by decide +kernel

/-- With two useful actuators the second measurement repeats the first. -/
example : ((makeIMat toyCfg toySense 0 [⟨2, 2, [true, true], [toyShapes3[0], toyShapes3[2]]⟩]).bind fun r =>
    (makeIMat toyCfg toySense 0 r.1).map fun r => r.2) = .ok [[-1, 0], [0, -1]] := by decide +kernel

end Soapy.Props
