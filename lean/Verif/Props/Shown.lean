import Mathlib.Data.List.Sort
import Verif.Lemmas.Shown
import Verif.Props.Given
import Verif.Props.Redraw
import Verif.Props.Visual
/-
C95: what a render that returns leaves on the canvas.
-/

namespace Verif

variable {M G : Type} {b : Studio M G} {s s' : Canvassed M G} {c : RCall M} {m : M}

/-- **C95 for Points, exactly.** Whatever happened before, after a render that returns each point is on the
canvas once, where the matrices put it, the farther ones first, with the colours, the width and the size
that the variables give it now (evaluated with the new "screen[positions]"): its own, if they are an array
with one for each point; otherwise those of its rank in the drawing. -/
theorem shown_points (hb : b.Proper) (h : renderPiecewise b .points c s = (s', .ok ()))
    (hm : matrixOf b c s = some m) :
    ∃ value rows fill line width sizes,
      s.vars.positions (s.around c.viewport) = .ok value ∧ reshapeThree value = .ok rows ∧
      s.vars.fill (s'.around c.viewport) = .ok fill ∧ s.vars.line (s'.around c.viewport) = .ok line ∧
      s.vars.width (s'.around c.viewport) = .ok width ∧
      s.vars.sizes (s'.around c.viewport) = .ok sizes ∧
      (s'.picture c.viewport).count = rows.length ∧
      (s'.positions.length = rows.length →
        s'.positions = rows.map (fun p => turnedDepth (b.place m p))) ∧
      (¬ fill.Muddled rows.length → ¬ line.Muddled rows.length →
        Ranked rows.length (rows.map (b.depth m))
          (fun k =>
            let p := s'.picture c.viewport
            (p.shapeAt k, p.colourOf .face k, p.colourOf .edge k, p.widthOf k, p.sizeOf k))
          (fun k j =>
            (rows[j]?.map (fun p => [b.onCanvas m p]), fill.colourAt rows.length k j,
              line.colourAt rows.length k j, width.widthAt rows.length k j, sizes.size j))) := by
  obtain ⟨s1, hv, hp, hi, hw, hd⟩ := render_drew h hm
  have ha : s1.around c.viewport = s.around c.viewport := by simp only [Canvassed.around, hp, hi]
  simp only [drawOn, drawPointsOn, bind_eval, bind_computed, bind_putPositions,
    bind_putField, putField_ok] at hd
  obtain ⟨value, hval, rows, hrows, -, new, hnew,
    fill, hfill, -, line, hline, -,
    width, hwidth, -, sizes, hsizes, xs, hxs, -, rfl⟩ := hd
  simp only [setPart_vars, setPart_viewport, setPositions_vars, setPositions_viewport, hv, hw] at hval hfill hline hwidth hsizes
  rw [ha] at hval
  have hs := hb.sorts ((rows.map (fun p => turnedDepth (b.place m p))).map thirdOf)
  have hperm : (b.order ((rows.map (fun p => turnedDepth (b.place m p))).map thirdOf)).Perm
      (List.range rows.length) := by simpa using hs.1
  refine ⟨value, rows, fill, line, width, sizes, hval, hrows, hfill, hline, hwidth, hsizes, ?_, ?_, ?_⟩
  · simp only [setPart_picture, picture_positions]
    rw [count_eq rfl, List.length_map]
    exact permute_count hperm (by simp)
  · intro hl
    exact fillRows_same hnew (by rw [List.length_map]; exact hl)
  · intro hf hli
    refine ⟨_, hperm, farther_first_partial .points (by decide) _ _ ?_, fun k hk => ?_⟩
    · convert hs using 1
      simp only [List.map_map]
      refine List.map_congr_left (fun p _ => ?_)
      simp only [Function.comp, turned_third (hb.three m p), VKind.sortKey, Studio.depth]
    · obtain ⟨j, hj⟩ := at_rank hperm hk
      refine ⟨j, hj, ?_⟩
      simp only [setPart_picture, picture_positions]
      refine tuple_five (shapeAt_eq rfl ?_) (colourOf_eq rfl ?_) (colourOf_eq rfl ?_) (widthOf_eq rfl ?_)
        (sizeOf_eq rfl ?_)
      · rw [permute_map_at hperm (by simp) hj, List.getElem?_map, Option.map_map]
        refine congrArg (fun f => Option.map f rows[j]?) (funext (fun p => ?_))
        simp only [Function.comp, flatShape, List.map_cons, List.map_nil, turned_flat (hb.three m p),
          Studio.onCanvas]
      · rw [List.length_map]
        exact colour_handOver hperm hf hj
      · rw [List.length_map]
        exact colour_handOver hperm hli hj
      · rw [List.length_map]
        exact width_handOver hperm hj
      · rw [List.length_map] at hxs
        exact size_settle hperm hxs hj

/-- **C95 for Markers, exactly.** The same, and each marker has the outline made for it with the model
matrix. -/
theorem shown_markers (hb : b.Proper) (h : renderPiecewise b .markers c s = (s', .ok ()))
    (hm : matrixOf b c s = some m) :
    ∃ value rows fill line width sizes axis types angles outlines,
      s.vars.positions (s.around c.viewport) = .ok value ∧ reshapeThree value = .ok rows ∧
      s.vars.fill (s'.around c.viewport) = .ok fill ∧ s.vars.line (s'.around c.viewport) = .ok line ∧
      s.vars.width (s'.around c.viewport) = .ok width ∧
      s.vars.sizes (s'.around c.viewport) = .ok sizes ∧
      s.vars.axis (s.around c.viewport) = .ok axis ∧ s.vars.types (s.around c.viewport) = .ok types ∧
      s.vars.angles (s.around c.viewport) = .ok angles ∧
      b.outlines (c.model.getD s.model) rows axis types angles = .ok outlines ∧
      (s'.picture c.viewport).count = rows.length ∧
      (s'.positions.length = rows.length →
        s'.positions = rows.map (fun p => turnedDepth (b.place m p))) ∧
      (outlines.length = rows.length →
        ¬ fill.Muddled rows.length → ¬ line.Muddled rows.length →
        Ranked rows.length (rows.map (b.depth m))
          (fun k =>
            let p := s'.picture c.viewport
            (p.outlineAt k, p.shapeAt k, p.colourOf .face k, p.colourOf .edge k, p.widthOf k, p.sizeOf k))
          (fun k j =>
            (outlines[j]?, rows[j]?.map (fun p => [b.onCanvas m p]), fill.colourAt rows.length k j,
              line.colourAt rows.length k j, width.widthAt rows.length k j, sizes.size j))) := by
  obtain ⟨s1, hv, hp, hi, hw, hd⟩ := render_drew h hm
  have ha : s1.around c.viewport = s.around c.viewport := by simp only [Canvassed.around, hp, hi]
  simp only [drawOn, drawMarkersOn, bind_eval, bind_computed, bind_putPositions,
    bind_putField, putField_ok] at hd
  obtain ⟨value, hval, rows, hrows, axis, haxis, types, htypes,
    angles, hangles, outlines, houtlines, new, hnew, -, -,
    fill, hfill, -, line, hline, -,
    width, hwidth, -, sizes, hsizes, xs, hxs, -, rfl⟩ := hd
  simp only [setPart_vars, setPart_viewport, setPositions_vars, setPositions_viewport, hv, hw] at hval haxis htypes hangles hfill hline hwidth hsizes
  rw [ha] at hval haxis htypes hangles
  have hs := hb.sorts ((rows.map (fun p => turnedDepth (b.place m p))).map thirdOf)
  have hperm : (b.order ((rows.map (fun p => turnedDepth (b.place m p))).map thirdOf)).Perm
      (List.range rows.length) := by simpa using hs.1
  refine ⟨value, rows, fill, line, width, sizes, axis, types, angles, outlines, hval, hrows, hfill, hline,
    hwidth, hsizes, haxis, htypes, hangles, houtlines, ?_, ?_, ?_⟩
  · simp only [setPart_picture, picture_positions]
    rw [count_eq rfl, List.length_map]
    exact permute_count hperm (by simp)
  · intro hl
    exact fillRows_same hnew (by rw [List.length_map]; exact hl)
  · intro ho hf hli
    refine ⟨_, hperm, farther_first_partial .markers (by decide) _ _ ?_, fun k hk => ?_⟩
    · convert hs using 1
      simp only [List.map_map]
      refine List.map_congr_left (fun p _ => ?_)
      simp only [Function.comp, turned_third (hb.three m p), VKind.sortKey, Studio.depth]
    · obtain ⟨j, hj⟩ := at_rank hperm hk
      refine ⟨j, hj, ?_⟩
      simp only [setPart_picture, picture_positions]
      refine tuple_two (outlineAt_eq rfl ?_) (tuple_five (shapeAt_eq rfl ?_) (colourOf_eq rfl ?_) (colourOf_eq rfl ?_) (widthOf_eq rfl ?_)
        (sizeOf_eq rfl ?_))
      · simpa using permute_map_at (f := id) hperm ho hj
      · rw [permute_map_at hperm (by simp) hj, List.getElem?_map, Option.map_map]
        refine congrArg (fun f => Option.map f rows[j]?) (funext (fun p => ?_))
        simp only [Function.comp, flatShape, List.map_cons, List.map_nil, turned_flat (hb.three m p),
          Studio.onCanvas]
      · rw [List.length_map]
        exact colour_handOver hperm hf hj
      · rw [List.length_map]
        exact colour_handOver hperm hli hj
      · rw [List.length_map]
        exact width_handOver hperm hj
      · rw [List.length_map] at hxs
        exact size_settle hperm hxs hj

/-- **C95 for Pixels, exactly.** The same, but the nearer ones come first (C30). -/
theorem shown_pixels (hb : b.Proper) (h : renderPiecewise b .pixels c s = (s', .ok ()))
    (hm : matrixOf b c s = some m) :
    ∃ value rows colors,
      s.vars.positions (s.around c.viewport) = .ok value ∧ b.asRows value = .ok rows ∧
      s.vars.colors (s'.around c.viewport) = .ok colors ∧
      (s'.picture c.viewport).count = rows.length ∧
      (s'.positions.length = rows.length → s'.positions = rows.map (b.place m)) ∧
      (¬ colors.Muddled rows.length → colors ≠ .none →
        Ranked rows.length (rows.map (fun p => - b.depth m p))
          (fun k =>
            let p := s'.picture c.viewport
            (p.shapeAt k, p.colourOf .face k))
          (fun k j => (rows[j]?.map (fun p => [b.onCanvas m p]), colors.colourAt rows.length k j))) := by
  obtain ⟨s1, hv, hp, hi, hw, hd⟩ := render_drew h hm
  have ha : s1.around c.viewport = s.around c.viewport := by simp only [Canvassed.around, hp, hi]
  simp only [drawOn, drawPixelsOn, bind_eval, bind_computed, bind_putPositions,
    bind_putField, putField_ok] at hd
  obtain ⟨value, hval, rows, hrows, -, new, hnew,
    colors, hcolors, hlast⟩ := hd
  simp only [setPart_vars, setPart_viewport, setPositions_vars, setPositions_viewport, hv, hw] at hval hcolors
  rw [ha] at hval
  have hs := hb.sorts ((rows.map (b.place m)).map thirdOf)
  have hperm : (b.order ((rows.map (b.place m)).map thirdOf)).Perm
      (List.range rows.length) := by simpa using hs.1
  have hfirst : FartherFirst (rows.map (fun p => - b.depth m p)) (b.order ((rows.map (b.place m)).map thirdOf)) := by
    have := pixels_nearer_first (rows.map (b.depth m)) (b.order ((rows.map (b.place m)).map thirdOf)) (by
      convert hs using 1
      simp only [List.map_map]
      rfl)
    rwa [List.map_map] at this
  by_cases hnone : colors = .none
  · rw [if_pos hnone, pure_ok] at hlast
    obtain ⟨rfl, -⟩ := hlast
    refine ⟨value, rows, colors, hval, hrows, hcolors, ?_, ?_, fun _ hn => absurd hnone hn⟩
    · simp only [setPart_picture, picture_positions]
      rw [count_eq rfl, List.length_map]
      exact permute_count hperm (by simp)
    · intro hl
      exact fillRows_same hnew (by rw [List.length_map]; exact hl)
  · rw [if_neg hnone, putField_ok] at hlast
    obtain ⟨-, rfl⟩ := hlast
    refine ⟨value, rows, colors, hval, hrows, hcolors, ?_, ?_, ?_⟩
    · simp only [setPart_picture, picture_positions]
      rw [count_eq rfl, List.length_map]
      exact permute_count hperm (by simp)
    · intro hl
      exact fillRows_same hnew (by rw [List.length_map]; exact hl)
    · intro hf _
      refine ⟨_, hperm, hfirst, fun k hk => ?_⟩
      obtain ⟨j, hj⟩ := at_rank hperm hk
      refine ⟨j, hj, ?_⟩
      simp only [setPart_picture, picture_positions]
      refine tuple_two (shapeAt_eq rfl ?_) (colourOf_eq rfl ?_)
      · rw [permute_map_at hperm (by simp) hj, List.getElem?_map, Option.map_map]
        rfl
      · rw [List.length_map]
        exact colour_handOver hperm hf hj

/-- **C95 for Segments, exactly.** Each pair of points is on the canvas once as a segment, the farther ones
(by the mean of the two depths) first. -/
theorem shown_segments (hb : b.Proper) (h : renderPiecewise b .segments c s = (s', .ok ()))
    (hm : matrixOf b c s = some m) :
    ∃ value rows line width n,
      s.vars.positions (s.around c.viewport) = .ok value ∧ reshapeThree value = .ok rows ∧
      s.vars.line (s'.around c.viewport) = .ok line ∧ s.vars.width (s'.around c.viewport) = .ok width ∧
      rows.length = 2 * n ∧ (s'.picture c.viewport).count = n ∧
      (¬ line.Muddled n →
        Ranked n
          ((List.range n).map (fun j =>
            meanOf [b.depth m (rows.getD (2 * j) []), b.depth m (rows.getD (2 * j + 1) [])]))
          (fun k =>
            let p := s'.picture c.viewport
            (p.shapeAt k, p.colourOf .edge k, p.widthOf k))
          (fun k j =>
            (some [b.onCanvas m (rows.getD (2 * j) []), b.onCanvas m (rows.getD (2 * j + 1) [])],
              line.colourAt n k j, width.widthAt n k j))) := by
  obtain ⟨s1, hv, hp, hi, hw, hd⟩ := render_drew h hm
  have ha : s1.around c.viewport = s.around c.viewport := by simp only [Canvassed.around, hp, hi]
  simp only [drawOn, drawSegmentsOn, bind_eval, bind_computed, bind_putPositions, bind_putItems,
    bind_putField, putField_ok] at hd
  obtain ⟨value, hval, rows, hrows, segments, hseg, -,
    new, hnew, new', hnew', line, hline, -,
    width, hwidth, -, rfl⟩ := hd
  simp only [setPart_vars, setPart_viewport, setPositions_vars, setPositions_viewport, setItems_vars,
    setItems_viewport, hv, hw] at hval hline hwidth
  rw [ha] at hval
  obtain ⟨hlen, hpair⟩ := pairUp_spec hseg
  have hs := hb.sorts (segments.map (fun q => - thirdOf (b.centre q)))
  have hperm : (b.order (segments.map (fun q => - thirdOf (b.centre q)))).Perm
      (List.range segments.length) := by simpa using hs.1
  refine ⟨value, rows, line, width, segments.length, hval, hrows, hline, hwidth, by simpa using hlen,
    ?_, ?_⟩
  · simp only [setPart_picture, picture_positions, picture_items]
    rw [count_eq rfl, List.length_map]
    exact permute_count hperm rfl
  · intro hli
    have hat : ∀ j, j < segments.length → segments[j]? =
        some [b.place m (rows.getD (2 * j) []), b.place m (rows.getD (2 * j + 1) [])] := by
      intro j hj
      rw [hpair j hj]
      have h1 : 2 * j < rows.length := by simp at hlen; omega
      have h2 : 2 * j + 1 < rows.length := by simp at hlen; omega
      simp [List.getD_eq_getElem?_getD, h1, h2]
    refine ⟨_, hperm, farther_first_partial .segments (by decide) _ _ ?_, fun k hk => ?_⟩
    · convert hs using 1
      apply List.ext_getElem?
      intro j
      rw [List.getElem?_map, List.getElem?_map, List.getElem?_map]
      by_cases hj : j < segments.length
      · rw [hat j hj, List.getElem?_range hj]
        simp only [Option.map_some, VKind.sortKey, thirdOf, hb.mean _ (List.cons_ne_nil _ _)]
        rfl
      · rw [List.getElem?_eq_none (l := segments) (by omega), List.getElem?_eq_none (by simpa using hj)]
        rfl
    · obtain ⟨j, hj⟩ := at_rank hperm hk
      refine ⟨j, hj, ?_⟩
      simp only [setPart_picture, picture_positions, picture_items]
      refine tuple_two (shapeAt_eq rfl ?_) (tuple_two (colourOf_eq rfl ?_) (widthOf_eq rfl ?_))
      · rw [permute_map_at hperm rfl hj, hat j (perm_range_lt hperm j (List.mem_of_getElem? hj))]
        rfl
      · exact colour_handOver hperm hli hj
      · exact width_handOver hperm hj

/-- **C95 for Paths, exactly.** Each path, as the indices cut it out of the points, is on the canvas once, the
farther ones (by the mean of the depths) first. -/
theorem shown_paths (hb : b.Proper) (h : renderPiecewise b .paths c s = (s', .ok ()))
    (hm : matrixOf b c s = some m) :
    ∃ value rows indices parts line width,
      s.vars.positions (s.around c.viewport) = .ok value ∧ reshapeThree value = .ok rows ∧
      s.vars.indices (s.around c.viewport) = .ok indices ∧
      cutPaths (rows.map (b.place m)) indices = .ok parts ∧
      s.vars.line (s'.around c.viewport) = .ok line ∧ s.vars.width (s'.around c.viewport) = .ok width ∧
      (s'.picture c.viewport).count = parts.length ∧
      (s'.positions.length = rows.length → s'.positions = rows.map (b.place m)) ∧
      ((∀ q ∈ parts, q ≠ []) → ¬ line.Muddled parts.length →
        Ranked parts.length (parts.map (fun q => meanOf (q.map (·.getD 2 0))))
          (fun k =>
            let p := s'.picture c.viewport
            (p.shapeAt k, p.colourOf .edge k, p.widthOf k))
          (fun k j =>
            (parts[j]?.map (fun q => q.map (·.take 2)), line.colourAt parts.length k j,
              width.widthAt parts.length k j))) := by
  obtain ⟨s1, hv, hp, hi, hw, hd⟩ := render_drew h hm
  have ha : s1.around c.viewport = s.around c.viewport := by simp only [Canvassed.around, hp, hi]
  simp only [drawOn, drawPiecesOn, bind_eval, bind_computed, bind_putPositions, bind_putItems,
    bind_putField, putField_ok, if_true, Bool.false_eq_true, if_false] at hd
  obtain ⟨value, hval, rows, hrows, indices, hind, parts, hparts,
    new, hnew, means, hmeans, new', hnew', -,
    line, hline, line', hline', -,
    width, hwidth, width', hwidth', -, rfl⟩ := hd
  simp only [setPart_vars, setPart_viewport, setPositions_vars, setPositions_viewport, setItems_vars,
    setItems_viewport, hv, hw] at hval hind hline hwidth
  rw [ha] at hval hind
  have hs := hb.sorts (parts.map (fun q => - thirdOf (b.centre q)))
  have hperm : (b.order (parts.map (fun q => - thirdOf (b.centre q)))).Perm
      (List.range parts.length) := by simpa using hs.1
  refine ⟨value, rows, indices, parts, line, width, hval, hrows, hind, hparts, hline, hwidth,
    ?_, ?_, ?_⟩
  · simp only [setPart_picture, picture_positions, picture_items]
    rw [count_eq rfl, List.length_map]
    exact permute_count hperm rfl
  · intro hl
    exact fillRows_same hnew (by rw [List.length_map]; exact hl)
  · intro hne hli
    refine ⟨_, hperm, farther_first_partial .paths (by decide) _ _ ?_, fun k hk => ?_⟩
    · convert hs using 1
      rw [List.map_map]
      refine List.map_congr_left (fun q hq => ?_)
      simp only [Function.comp, VKind.sortKey, thirdOf, hb.mean q (hne q hq)]
    · obtain ⟨j, hj⟩ := at_rank hperm hk
      refine ⟨j, hj, ?_⟩
      simp only [setPart_picture, picture_positions, picture_items]
      refine tuple_two (shapeAt_eq rfl ?_) (tuple_two (colourOf_eq rfl ?_) (widthOf_eq rfl ?_))
      · rw [permute_map_at hperm rfl hj]
        rfl
      · rw [handOverPieces_eq hline']
        exact colour_handOver hperm hli hj
      · rw [handOverPieces_eq hwidth']
        exact width_handOver hperm hj

/-- **C95 for Polygons, exactly.** -/
theorem shown_polygons (hb : b.Proper) (h : renderPiecewise b .polygons c s = (s', .ok ()))
    (hm : matrixOf b c s = some m) :
    ∃ value rows indices parts fill line width,
      s.vars.positions (s.around c.viewport) = .ok value ∧ reshapeThree value = .ok rows ∧
      s.vars.indices (s.around c.viewport) = .ok indices ∧
      cutPaths (rows.map (b.place m)) indices = .ok parts ∧
      s.vars.fill (s'.around c.viewport) = .ok fill ∧
      s.vars.line (s'.around c.viewport) = .ok line ∧ s.vars.width (s'.around c.viewport) = .ok width ∧
      (s'.picture c.viewport).count = parts.length ∧
      (s'.positions.length = rows.length → s'.positions = rows.map (b.place m)) ∧
      ((∀ q ∈ parts, q ≠ []) → ¬ fill.Muddled parts.length →
        ¬ line.Muddled parts.length →
        Ranked parts.length (parts.map (fun q => meanOf (q.map (·.getD 2 0))))
          (fun k =>
            let p := s'.picture c.viewport
            (p.shapeAt k, p.colourOf .face k, p.colourOf .edge k, p.widthOf k))
          (fun k j =>
            (parts[j]?.map (fun q => q.map (·.take 2)), fill.colourAt parts.length k j, line.colourAt parts.length k j,
              width.widthAt parts.length k j))) := by
  obtain ⟨s1, hv, hp, hi, hw, hd⟩ := render_drew h hm
  have ha : s1.around c.viewport = s.around c.viewport := by simp only [Canvassed.around, hp, hi]
  simp only [drawOn, drawPiecesOn, bind_eval, bind_computed, bind_putPositions, bind_putItems,
    bind_putField, putField_ok, if_true, Bool.false_eq_true, if_false] at hd
  obtain ⟨value, hval, rows, hrows, indices, hind, parts, hparts,
    new, hnew, means, hmeans, new', hnew', -,
    fill, hfill, fill', hfill', -, line, hline, line', hline', -,
    width, hwidth, width', hwidth', -, rfl⟩ := hd
  simp only [setPart_vars, setPart_viewport, setPositions_vars, setPositions_viewport, setItems_vars,
    setItems_viewport, hv, hw] at hval hind hline hwidth hfill
  rw [ha] at hval hind
  have hs := hb.sorts (parts.map (fun q => - thirdOf (b.centre q)))
  have hperm : (b.order (parts.map (fun q => - thirdOf (b.centre q)))).Perm
      (List.range parts.length) := by simpa using hs.1
  refine ⟨value, rows, indices, parts, fill, line, width, hval, hrows, hind, hparts, hfill, hline, hwidth,
    ?_, ?_, ?_⟩
  · simp only [setPart_picture, picture_positions, picture_items]
    rw [count_eq rfl, List.length_map]
    exact permute_count hperm rfl
  · intro hl
    exact fillRows_same hnew (by rw [List.length_map]; exact hl)
  · intro hne hf hli
    refine ⟨_, hperm, farther_first_partial .polygons (by decide) _ _ ?_, fun k hk => ?_⟩
    · convert hs using 1
      rw [List.map_map]
      refine List.map_congr_left (fun q hq => ?_)
      simp only [Function.comp, VKind.sortKey, thirdOf, hb.mean q (hne q hq)]
    · obtain ⟨j, hj⟩ := at_rank hperm hk
      refine ⟨j, hj, ?_⟩
      simp only [setPart_picture, picture_positions, picture_items]
      refine tuple_two (shapeAt_eq rfl ?_) (tuple_two (colourOf_eq rfl ?_) (tuple_two (colourOf_eq rfl ?_) (widthOf_eq rfl ?_)))
      · rw [permute_map_at hperm rfl hj]
        rfl
      · rw [handOverPieces_eq hfill']
        exact colour_handOver hperm hf hj
      · rw [handOverPieces_eq hline']
        exact colour_handOver hperm hli hj
      · rw [handOverPieces_eq hwidth']
        exact width_handOver hperm hj

/-- **C95 for Points.** Whatever happened before, after a render that returns each point is on the canvas
once, where the matrices put it, the farther ones first, with its own colours, width and size: those that
the variables have now, evaluated with the new "screen[positions]". (Missing: colours and widths that do
not say clearly what is meant, see C29 and C90.) -/
theorem shown_points_partial (hb : b.Proper) (h : renderPiecewise b .points c s = (s', .ok ()))
    (hm : matrixOf b c s = some m) :
    ∃ value rows fill line width sizes,
      s.vars.positions (s.around c.viewport) = .ok value ∧ reshapeThree value = .ok rows ∧
      s.vars.fill (s'.around c.viewport) = .ok fill ∧ s.vars.line (s'.around c.viewport) = .ok line ∧
      s.vars.width (s'.around c.viewport) = .ok width ∧
      s.vars.sizes (s'.around c.viewport) = .ok sizes ∧
      (s'.picture c.viewport).count = rows.length ∧
      (s'.positions.length = rows.length →
        s'.positions = rows.map (fun p => turnedDepth (b.place m p))) ∧
      (fill.SaysColour rows.length → line.SaysColour rows.length → width.SaysWidth rows.length →
        Arranged rows.length (rows.map (b.depth m))
          (fun k =>
            let p := s'.picture c.viewport
            (p.shapeAt k, p.colourOf .face k, p.colourOf .edge k, p.widthOf k, p.sizeOf k))
          (fun j =>
            (rows[j]?.map (fun p => [b.onCanvas m p]), fill.colour rows.length j,
              line.colour rows.length j, width.width rows.length j, sizes.size j))) := by
  obtain ⟨value, rows, fill, line, width, sizes, h1, h2, h3, h4, h5, h6, h7, h8, hall⟩ := shown_points hb h hm
  refine ⟨value, rows, fill, line, width, sizes, h1, h2, h3, h4, h5, h6, h7, h8, fun hf hl hw => ?_⟩
  refine (hall (says_clear hf) (says_clear hl)).arranged (fun k j hj => ?_)
  simp only [colour_meant hf hj, colour_meant hl hj, width_meant hw hj]

/-- **C95 for Markers.** The same for markers, which also have the outlines made for them with the model
matrix: whatever happened before, after a render that returns each marker is on the canvas
once, where the matrices put it, the farther ones first, with its own colours, width and size: those that
the variables have now, evaluated with the new "screen[positions]". (Missing: colours and widths that do
not say clearly what is meant, see C29 and C90.) -/
theorem shown_markers_partial (hb : b.Proper) (h : renderPiecewise b .markers c s = (s', .ok ()))
    (hm : matrixOf b c s = some m) :
    ∃ value rows fill line width sizes axis types angles outlines,
      s.vars.positions (s.around c.viewport) = .ok value ∧ reshapeThree value = .ok rows ∧
      s.vars.fill (s'.around c.viewport) = .ok fill ∧ s.vars.line (s'.around c.viewport) = .ok line ∧
      s.vars.width (s'.around c.viewport) = .ok width ∧
      s.vars.sizes (s'.around c.viewport) = .ok sizes ∧
      s.vars.axis (s.around c.viewport) = .ok axis ∧ s.vars.types (s.around c.viewport) = .ok types ∧
      s.vars.angles (s.around c.viewport) = .ok angles ∧
      b.outlines (c.model.getD s.model) rows axis types angles = .ok outlines ∧
      (s'.picture c.viewport).count = rows.length ∧
      (s'.positions.length = rows.length →
        s'.positions = rows.map (fun p => turnedDepth (b.place m p))) ∧
      (outlines.length = rows.length →
        fill.SaysColour rows.length → line.SaysColour rows.length → width.SaysWidth rows.length →
        Arranged rows.length (rows.map (b.depth m))
          (fun k =>
            let p := s'.picture c.viewport
            (p.outlineAt k, p.shapeAt k, p.colourOf .face k, p.colourOf .edge k, p.widthOf k, p.sizeOf k))
          (fun j =>
            (outlines[j]?, rows[j]?.map (fun p => [b.onCanvas m p]), fill.colour rows.length j,
              line.colour rows.length j, width.width rows.length j, sizes.size j))) := by
  obtain ⟨value, rows, fill, line, width, sizes, axis, types, angles, outlines, h1, h2, h3, h4, h5, h6, h7, h8, h9, h10, h11, h12, hall⟩ := shown_markers hb h hm
  refine ⟨value, rows, fill, line, width, sizes, axis, types, angles, outlines, h1, h2, h3, h4, h5, h6, h7, h8, h9, h10, h11, h12, fun ho hf hl hw => ?_⟩
  refine (hall ho (says_clear hf) (says_clear hl)).arranged (fun k j hj => ?_)
  simp only [colour_meant hf hj, colour_meant hl hj, width_meant hw hj]

/-- **C95 for Pixels.** The same for pixels, but for the order: the nearer ones come first (C30). -/
theorem shown_pixels_partial (hb : b.Proper) (h : renderPiecewise b .pixels c s = (s', .ok ()))
    (hm : matrixOf b c s = some m) :
    ∃ value rows colors,
      s.vars.positions (s.around c.viewport) = .ok value ∧ b.asRows value = .ok rows ∧
      s.vars.colors (s'.around c.viewport) = .ok colors ∧
      (s'.picture c.viewport).count = rows.length ∧
      (s'.positions.length = rows.length → s'.positions = rows.map (b.place m)) ∧
      (colors.SaysColour rows.length → colors ≠ .none →
        Arranged rows.length (rows.map (fun p => - b.depth m p))
          (fun k =>
            let p := s'.picture c.viewport
            (p.shapeAt k, p.colourOf .face k))
          (fun j => (rows[j]?.map (fun p => [b.onCanvas m p]), colors.colour rows.length j))) := by
  obtain ⟨value, rows, colors, h1, h2, h3, h4, h5, hall⟩ := shown_pixels hb h hm
  refine ⟨value, rows, colors, h1, h2, h3, h4, h5, fun hf hn => ?_⟩
  refine (hall (says_clear hf) hn).arranged (fun k j hj => ?_)
  simp only [colour_meant hf hj]

/-- **C95 for Segments.** Each pair of points is on the canvas once as a segment, the farther ones (by the
mean of the two depths) first, with its own colour and width. -/
theorem shown_segments_partial (hb : b.Proper) (h : renderPiecewise b .segments c s = (s', .ok ()))
    (hm : matrixOf b c s = some m) :
    ∃ value rows line width n,
      s.vars.positions (s.around c.viewport) = .ok value ∧ reshapeThree value = .ok rows ∧
      s.vars.line (s'.around c.viewport) = .ok line ∧ s.vars.width (s'.around c.viewport) = .ok width ∧
      rows.length = 2 * n ∧ (s'.picture c.viewport).count = n ∧
      (line.SaysColour n → width.SaysWidth n →
        Arranged n
          ((List.range n).map (fun j =>
            meanOf [b.depth m (rows.getD (2 * j) []), b.depth m (rows.getD (2 * j + 1) [])]))
          (fun k =>
            let p := s'.picture c.viewport
            (p.shapeAt k, p.colourOf .edge k, p.widthOf k))
          (fun j =>
            (some [b.onCanvas m (rows.getD (2 * j) []), b.onCanvas m (rows.getD (2 * j + 1) [])],
              line.colour n j, width.width n j))) := by
  obtain ⟨value, rows, line, width, n, h1, h2, h3, h4, h5, h6, hall⟩ := shown_segments hb h hm
  refine ⟨value, rows, line, width, n, h1, h2, h3, h4, h5, h6, fun hl hw => ?_⟩
  refine (hall (says_clear hl)).arranged (fun k j hj => ?_)
  simp only [colour_meant hl hj, width_meant hw hj]

/-- **C95 for Paths.**** Each path, as the indices cut it out of the points, is on the canvas once, the farther
ones (by the mean of the depths) first, with its own colour and width. -/
theorem shown_paths_partial (hb : b.Proper) (h : renderPiecewise b .paths c s = (s', .ok ()))
    (hm : matrixOf b c s = some m) :
    ∃ value rows indices parts line width,
      s.vars.positions (s.around c.viewport) = .ok value ∧ reshapeThree value = .ok rows ∧
      s.vars.indices (s.around c.viewport) = .ok indices ∧
      cutPaths (rows.map (b.place m)) indices = .ok parts ∧
      s.vars.line (s'.around c.viewport) = .ok line ∧ s.vars.width (s'.around c.viewport) = .ok width ∧
      (s'.picture c.viewport).count = parts.length ∧
      (s'.positions.length = rows.length → s'.positions = rows.map (b.place m)) ∧
      ((∀ q ∈ parts, q ≠ []) → line.SaysColour parts.length → width.SaysWidth parts.length →
        Arranged parts.length (parts.map (fun q => meanOf (q.map (·.getD 2 0))))
          (fun k =>
            let p := s'.picture c.viewport
            (p.shapeAt k, p.colourOf .edge k, p.widthOf k))
          (fun j =>
            (parts[j]?.map (fun q => q.map (·.take 2)), line.colour parts.length j,
              width.width parts.length j))) := by
  obtain ⟨value, rows, indices, parts, line, width, h1, h2, h3, h4, h5, h6, h7, h8, hall⟩ := shown_paths hb h hm
  refine ⟨value, rows, indices, parts, line, width, h1, h2, h3, h4, h5, h6, h7, h8, fun hne hl hw => ?_⟩
  refine (hall hne (says_clear hl)).arranged (fun k j hj => ?_)
  simp only [colour_meant hl hj, width_meant hw hj]

/-- **C95 for Polygons.**** Each polygon, as the indices cut it out of the points, is on the canvas once, the farther
ones (by the mean of the depths) first, with its own colours and width. -/
theorem shown_polygons_partial (hb : b.Proper) (h : renderPiecewise b .polygons c s = (s', .ok ()))
    (hm : matrixOf b c s = some m) :
    ∃ value rows indices parts fill line width,
      s.vars.positions (s.around c.viewport) = .ok value ∧ reshapeThree value = .ok rows ∧
      s.vars.indices (s.around c.viewport) = .ok indices ∧
      cutPaths (rows.map (b.place m)) indices = .ok parts ∧
      s.vars.fill (s'.around c.viewport) = .ok fill ∧
      s.vars.line (s'.around c.viewport) = .ok line ∧ s.vars.width (s'.around c.viewport) = .ok width ∧
      (s'.picture c.viewport).count = parts.length ∧
      (s'.positions.length = rows.length → s'.positions = rows.map (b.place m)) ∧
      ((∀ q ∈ parts, q ≠ []) → fill.SaysColour parts.length →
        line.SaysColour parts.length → width.SaysWidth parts.length →
        Arranged parts.length (parts.map (fun q => meanOf (q.map (·.getD 2 0))))
          (fun k =>
            let p := s'.picture c.viewport
            (p.shapeAt k, p.colourOf .face k, p.colourOf .edge k, p.widthOf k))
          (fun j =>
            (parts[j]?.map (fun q => q.map (·.take 2)), fill.colour parts.length j, line.colour parts.length j,
              width.width parts.length j))) := by
  obtain ⟨value, rows, indices, parts, fill, line, width, h1, h2, h3, h4, h5, h6, h7, h8, h9, hall⟩ := shown_polygons hb h hm
  refine ⟨value, rows, indices, parts, fill, line, width, h1, h2, h3, h4, h5, h6, h7, h8, h9, fun hne hf hl hw => ?_⟩
  refine (hall hne (says_clear hf) (says_clear hl)).arranged (fun k j hj => ?_)
  simp only [colour_meant hf hj, colour_meant hl hj, width_meant hw hj]

/-- With plain values, one for each element, a render returns (and so the theorems above say what is on the
canvas). -/
theorem plain_render_returns {k : VKind} {n : Nat} {given : Nested} {rows : PointRows} {indices : Indices}
    (hacc : b.Accepts) (hg : Gives s.vars n given indices)
    (hr : reshapeThree (.array given) = .ok rows) (hpx : k = .pixels → given = .rows rows)
    (hc : Counts b k n rows indices m) (hmade : Made k n rows s) (hm : matrixOf b c s = some m) :
    ∃ s', renderPiecewise b k c s = (s', .ok ()) := by
  obtain ⟨hpos, hind, ⟨ty, hty⟩, ⟨ax, hax⟩, ⟨an, han⟩, ⟨fi, hfin, hfi⟩, ⟨li, hlin, hli⟩, ⟨wi, hwin, hwi⟩,
    ⟨sz, hsz⟩, ⟨co, hcon, hco⟩, ⟨ca, hca⟩⟩ := hg
  apply render_returns hm ⟨ca, hca _⟩
  intro s1 hv hp hi
  rw [← hv] at hpos hind hty hax han hfi hli hwi hsz hco
  cases k with
  | points =>
    have hn : rows.length = n := hc
    have hmade : s.positions.length = n := hmade
    refine goes_bind ((evalVar_ok _ _ _ _).2 ⟨rfl, hpos _⟩) ?_
    refine goes_bind ((computed_ok _ _ _ _).2 ⟨rfl, hr⟩) ?_
    refine goes_bind ((putField_ok _ _ _ _ _ _ ()).2 ⟨rfl, rfl⟩) ?_
    refine goes_bind ((putPositions_ok _ _ _ ()).2 ⟨_, fillRows_fit (by simp only [setPart_positions, List.length_map]; rw [hp, hn, hmade]), rfl⟩) ?_
    refine goes_bind ((evalVar_ok _ _ _ _).2 ⟨rfl, hfi _⟩) ?_
    refine goes_bind ((putField_ok _ _ _ _ _ _ ()).2 ⟨(hacc.paints _), rfl⟩) ?_
    refine goes_bind ((evalVar_ok _ _ _ _).2 ⟨rfl, hli _⟩) ?_
    refine goes_bind ((putField_ok _ _ _ _ _ _ ()).2 ⟨(hacc.paints _), rfl⟩) ?_
    refine goes_bind ((evalVar_ok _ _ _ _).2 ⟨rfl, hwi _⟩) ?_
    refine goes_bind ((putField_ok _ _ _ _ _ _ ()).2 ⟨(hacc.strokes _), rfl⟩) ?_
    refine goes_bind ((evalVar_ok _ _ _ _).2 ⟨rfl, hsz _⟩) ?_
    refine goes_bind ((computed_ok _ _ _ _).2 ⟨rfl, rfl⟩) ?_
    exact congrArg Prod.snd ((putField_ok _ _ _ _ _ _ ()).2 ⟨rfl, rfl⟩)
  | markers =>
    have hn : rows.length = n := hc
    have hmade : s.positions.length = n := hmade
    obtain ⟨gs, hgs⟩ := hacc.outlines (c.model.getD s.model) rows ax ty an
    refine goes_bind ((evalVar_ok _ _ _ _).2 ⟨rfl, hpos _⟩) ?_
    refine goes_bind ((computed_ok _ _ _ _).2 ⟨rfl, hr⟩) ?_
    refine goes_bind ((evalVar_ok _ _ _ _).2 ⟨rfl, hax _⟩) ?_
    refine goes_bind ((evalVar_ok _ _ _ _).2 ⟨rfl, hty _⟩) ?_
    refine goes_bind ((evalVar_ok _ _ _ _).2 ⟨rfl, han _⟩) ?_
    refine goes_bind ((computed_ok _ _ _ _).2 ⟨rfl, hgs⟩) ?_
    refine goes_bind ((putPositions_ok _ _ _ ()).2 ⟨_, fillRows_fit (by simp only [setPart_positions, List.length_map]; rw [hp, hn, hmade]), rfl⟩) ?_
    refine goes_bind ((putField_ok _ _ _ _ _ _ ()).2 ⟨rfl, rfl⟩) ?_
    refine goes_bind ((putField_ok _ _ _ _ _ _ ()).2 ⟨rfl, rfl⟩) ?_
    refine goes_bind ((evalVar_ok _ _ _ _).2 ⟨rfl, hfi _⟩) ?_
    refine goes_bind ((putField_ok _ _ _ _ _ _ ()).2 ⟨(hacc.paints _), rfl⟩) ?_
    refine goes_bind ((evalVar_ok _ _ _ _).2 ⟨rfl, hli _⟩) ?_
    refine goes_bind ((putField_ok _ _ _ _ _ _ ()).2 ⟨(hacc.paints _), rfl⟩) ?_
    refine goes_bind ((evalVar_ok _ _ _ _).2 ⟨rfl, hwi _⟩) ?_
    refine goes_bind ((putField_ok _ _ _ _ _ _ ()).2 ⟨(hacc.strokes _), rfl⟩) ?_
    refine goes_bind ((evalVar_ok _ _ _ _).2 ⟨rfl, hsz _⟩) ?_
    refine goes_bind ((computed_ok _ _ _ _).2 ⟨rfl, rfl⟩) ?_
    exact congrArg Prod.snd ((putField_ok _ _ _ _ _ _ ()).2 ⟨rfl, rfl⟩)
  | pixels =>
    have hn : rows.length = n := hc
    have hmade : s.positions.length = n := hmade
    have hrows := hacc.asRows rows
    rw [← hpx rfl] at hrows
    refine goes_bind ((evalVar_ok _ _ _ _).2 ⟨rfl, hpos _⟩) ?_
    refine goes_bind ((computed_ok _ _ _ _).2 ⟨rfl, hrows⟩) ?_
    refine goes_bind ((putField_ok _ _ _ _ _ _ ()).2 ⟨rfl, rfl⟩) ?_
    refine goes_bind ((putPositions_ok _ _ _ ()).2 ⟨_, fillRows_fit (by simp only [setPart_positions, List.length_map]; rw [hp, hn, hmade]), rfl⟩) ?_
    refine goes_bind ((evalVar_ok _ _ _ _).2 ⟨rfl, hco _⟩) ?_
    rw [if_neg (by simp)]
    exact congrArg Prod.snd ((putField_ok _ _ _ _ _ _ ()).2 ⟨(hacc.paints _), rfl⟩)
  | segments =>
    have hn : rows.length = 2 * n := hc
    obtain ⟨hm1, hm2⟩ : s.positions.length = n ∧ s.items.length = n := hmade
    obtain ⟨segs, hsegs, hln⟩ := pairUp_even (n := n) (ps := rows.map (b.place m)) (by simpa using hn)
    refine goes_bind ((evalVar_ok _ _ _ _).2 ⟨rfl, hpos _⟩) ?_
    refine goes_bind ((computed_ok _ _ _ _).2 ⟨rfl, hr⟩) ?_
    refine goes_bind ((computed_ok _ _ _ _).2 ⟨rfl, hsegs⟩) ?_
    refine goes_bind ((putField_ok _ _ _ _ _ _ ()).2 ⟨rfl, rfl⟩) ?_
    refine goes_bind ((putPositions_ok _ _ _ ()).2 ⟨_, fillRows_fit (by simp only [setPart_positions, List.length_map]; rw [hp, hln, hm1]), rfl⟩) ?_
    refine goes_bind ((putItems_ok _ _ _ ()).2 ⟨_, fillRows_fit (by
      show _ = s1.items.length
      simp only [List.length_map]
      rw [hi, hln, hm2]), rfl⟩) ?_
    refine goes_bind ((evalVar_ok _ _ _ _).2 ⟨rfl, hli _⟩) ?_
    refine goes_bind ((putField_ok _ _ _ _ _ _ ()).2 ⟨(hacc.paints _), rfl⟩) ?_
    refine goes_bind ((evalVar_ok _ _ _ _).2 ⟨rfl, hwi _⟩) ?_
    exact congrArg Prod.snd ((putField_ok _ _ _ _ _ _ ()).2 ⟨(hacc.strokes _), rfl⟩)
  | paths =>
    obtain ⟨parts, hparts, hln, h0⟩ : ∃ parts, cutPaths (rows.map (b.place m)) indices = .ok parts ∧
      parts.length = n ∧ 0 < n := hc
    obtain ⟨hm1, hm2⟩ : s.positions.length = rows.length ∧ s.items.length = n := hmade
    have hmeans : meansOf (parts.map b.centre) = .ok (parts.map b.centre) := by
      unfold meansOf
      rw [if_neg]
      intro h
      have := congrArg List.length h
      simp at this
      rw [this] at hln
      simp at hln
      omega
    refine goes_bind ((evalVar_ok _ _ _ _).2 ⟨rfl, hpos _⟩) ?_
    refine goes_bind ((computed_ok _ _ _ _).2 ⟨rfl, hr⟩) ?_
    refine goes_bind ((evalVar_ok _ _ _ _).2 ⟨rfl, hind _⟩) ?_
    refine goes_bind ((computed_ok _ _ _ _).2 ⟨rfl, hparts⟩) ?_
    refine goes_bind ((putPositions_ok _ _ _ ()).2 ⟨_, fillRows_fit (by rw [List.length_map, hp, hm1]), rfl⟩) ?_
    refine goes_bind ((computed_ok _ _ _ _).2 ⟨rfl, hmeans⟩) ?_
    refine goes_bind ((putItems_ok _ _ _ ()).2 ⟨_, fillRows_fit (by
      show _ = s1.items.length
      simp only [List.length_map]
      rw [hi, hln, hm2]), rfl⟩) ?_
    refine goes_bind ((putField_ok _ _ _ _ _ _ ()).2 ⟨rfl, rfl⟩) ?_
    refine goes_bind ((evalVar_ok _ _ _ _).2 ⟨rfl, hli _⟩) ?_
    refine goes_bind ((computed_ok _ _ _ _).2 ⟨rfl, (handOverPieces_fit (by rw [hln]; exact hlin))⟩) ?_
    refine goes_bind ((putField_ok _ _ _ _ _ _ ()).2 ⟨(hacc.paints _), rfl⟩) ?_
    refine goes_bind ((evalVar_ok _ _ _ _).2 ⟨rfl, hwi _⟩) ?_
    refine goes_bind ((computed_ok _ _ _ _).2 ⟨rfl, (handOverPieces_fit (by rw [hln]; exact hwin))⟩) ?_
    exact congrArg Prod.snd ((putField_ok _ _ _ _ _ _ ()).2 ⟨(hacc.strokes _), rfl⟩)
  | polygons =>
    obtain ⟨parts, hparts, hln, h0⟩ : ∃ parts, cutPaths (rows.map (b.place m)) indices = .ok parts ∧
      parts.length = n ∧ 0 < n := hc
    obtain ⟨hm1, hm2⟩ : s.positions.length = rows.length ∧ s.items.length = n := hmade
    have hmeans : meansOf (parts.map b.centre) = .ok (parts.map b.centre) := by
      unfold meansOf
      rw [if_neg]
      intro h
      have := congrArg List.length h
      simp at this
      rw [this] at hln
      simp at hln
      omega
    refine goes_bind ((evalVar_ok _ _ _ _).2 ⟨rfl, hpos _⟩) ?_
    refine goes_bind ((computed_ok _ _ _ _).2 ⟨rfl, hr⟩) ?_
    refine goes_bind ((evalVar_ok _ _ _ _).2 ⟨rfl, hind _⟩) ?_
    refine goes_bind ((computed_ok _ _ _ _).2 ⟨rfl, hparts⟩) ?_
    refine goes_bind ((putPositions_ok _ _ _ ()).2 ⟨_, fillRows_fit (by rw [List.length_map, hp, hm1]), rfl⟩) ?_
    refine goes_bind ((computed_ok _ _ _ _).2 ⟨rfl, hmeans⟩) ?_
    refine goes_bind ((putItems_ok _ _ _ ()).2 ⟨_, fillRows_fit (by
      show _ = s1.items.length
      simp only [List.length_map]
      rw [hi, hln, hm2]), rfl⟩) ?_
    refine goes_bind ((putField_ok _ _ _ _ _ _ ()).2 ⟨rfl, rfl⟩) ?_
    refine goes_bind ((evalVar_ok _ _ _ _).2 ⟨rfl, hfi _⟩) ?_
    refine goes_bind ((computed_ok _ _ _ _).2 ⟨rfl, (handOverPieces_fit (by rw [hln]; exact hfin))⟩) ?_
    refine goes_bind ((putField_ok _ _ _ _ _ _ ()).2 ⟨(hacc.paints _), rfl⟩) ?_
    refine goes_bind ((evalVar_ok _ _ _ _).2 ⟨rfl, hli _⟩) ?_
    refine goes_bind ((computed_ok _ _ _ _).2 ⟨rfl, (handOverPieces_fit (by rw [hln]; exact hlin))⟩) ?_
    refine goes_bind ((putField_ok _ _ _ _ _ _ ()).2 ⟨(hacc.paints _), rfl⟩) ?_
    refine goes_bind ((evalVar_ok _ _ _ _).2 ⟨rfl, hwi _⟩) ?_
    refine goes_bind ((computed_ok _ _ _ _).2 ⟨rfl, (handOverPieces_fit (by rw [hln]; exact hwin))⟩) ?_
    exact congrArg Prod.snd ((putField_ok _ _ _ _ _ _ ()).2 ⟨(hacc.strokes _), rfl⟩)

/-! ### A sample -/

/-- Elements sorted by insertion. -/
def insertedOrder (keys : List ℚ) : List Nat :=
  (List.range keys.length).insertionSort (fun i j => keys.getD i 0 ≤ keys.getD j 0)

theorem insertedOrder_sorts (keys : List ℚ) : IsArgsort keys (insertedOrder keys) := by
  have hp : (insertedOrder keys).Perm (List.range keys.length) := List.perm_insertionSort _ _
  refine ⟨hp, ?_⟩
  have : Std.Total (fun i j : Nat => keys.getD i 0 ≤ keys.getD j 0) := ⟨fun i j => le_total _ _⟩
  have : IsTrans Nat (fun i j : Nat => keys.getD i 0 ≤ keys.getD j 0) := ⟨fun i j k => le_trans⟩
  have hs := List.pairwise_insertionSort (fun i j : Nat => keys.getD i 0 ≤ keys.getD j 0)
    (List.range keys.length)
  rw [permute_eq_map (perm_range_lt hp)]
  rw [List.pairwise_map]
  refine hs.imp ?_
  intro i j h
  simp only [List.getD_eq_getElem?_getD] at h
  exact h

/-- A studio where points stay where they are. -/
def stillStudio : Studio Unit Evald where
  mul := fun _ _ => some ()
  place := fun _ p => [p.getD 0 0, p.getD 1 0, p.getD 2 0]
  asRows := fun x => match x with
    | .array (.rows rows) => .ok rows
    | _ => .error .valueError
  centre := fun ps => [0, 0, meanOf (ps.map (·.getD 2 0))]
  order := insertedOrder
  outlines := fun _ rows _ _ angles => .ok (rows.map (fun _ => angles))
  paints := fun _ => .ok ()
  strokes := fun _ => .ok ()

theorem stillStudio_proper : stillStudio.Proper :=
  ⟨fun _ _ => rfl, fun _ _ => rfl, insertedOrder_sorts⟩

theorem stillStudio_accepts : stillStudio.Accepts :=
  ⟨fun _ => rfl, fun _ => rfl, fun _ _ _ _ _ => ⟨_, rfl⟩, fun _ => rfl⟩

/-- Two elements with a colour and a width each. -/
def twoVars (given : Nested) (indices : Indices) : Vars where
  positions := fun _ => .ok (.array given)
  indices := fun _ => .ok indices
  types := fun _ => .ok (.number 0)
  axis := fun _ => .ok .none
  angles := fun _ => .ok (.number 0)
  fill := fun _ => .ok (.array (.rows [[1, 0, 0, 1], [0, 1, 0, 1]]))
  line := fun _ => .ok (.array (.rows [[0, 0, 1, 1], [1, 1, 0, 1]]))
  width := fun _ => .ok (.array (.numbers [3, 4]))
  sizes := fun _ => .ok (.number 1)
  colors := fun _ => .ok (.array (.rows [[1, 0, 0, 1], [0, 1, 0, 1]]))
  caps := fun _ => .ok 1
  styles := fun _ => .ok 1
  joins := fun _ => .ok 1

/-- Two points of different depth, two segments and two paths meet what the theorems ask for. -/
example :
    Gives (twoVars (.rows [[0, 0, 1], [1, 1, 2]]) (.size 1)) 2 (.rows [[0, 0, 1], [1, 1, 2]]) (.size 1) ∧
    (∀ k ∈ [VKind.points, .markers, .pixels],
      Counts stillStudio k 2 [[0, 0, 1], [1, 1, 2]] (.size 1) ()) ∧
    Counts stillStudio .segments 2 [[0, 0, 1], [1, 1, 2], [2, 2, 3], [3, 3, 4]] (.size 1) () ∧
    Counts stillStudio .paths 2 [[0, 0, 1], [1, 1, 2], [2, 2, 3], [3, 3, 4]] (.size 2) () ∧
    Counts stillStudio .polygons 2 [[0, 0, 1], [1, 1, 2], [2, 2, 3], [3, 3, 4]] (.size 2) () := by
  refine ⟨⟨fun _ => rfl, fun _ => rfl, ⟨_, fun _ => rfl⟩, ⟨_, fun _ => rfl⟩, ⟨_, fun _ => rfl⟩,
    ⟨_, rfl, fun _ => rfl⟩, ⟨_, rfl, fun _ => rfl⟩, ⟨_, rfl, fun _ => rfl⟩, ⟨_, fun _ => rfl⟩,
    ⟨_, rfl, fun _ => rfl⟩, ⟨_, fun _ => rfl⟩⟩, ?_, rfl,
    ⟨[[[0, 0, 1], [1, 1, 2]], [[2, 2, 3], [3, 3, 4]]], by decide +kernel, rfl, by decide⟩,
    ⟨[[[0, 0, 1], [1, 1, 2]], [[2, 2, 3], [3, 3, 4]]], by decide +kernel, rfl, by decide⟩⟩
  intro k hk
  simp only [List.mem_cons, List.not_mem_nil, or_false] at hk
  rcases hk with rfl | rfl | rfl <;> rfl

/-- The two points drawn: the second, which is farther, first; each with its own colour. -/
example :
    let s : Canvassed Unit Evald :=
      ⟨twoVars (.rows [[0, 0, 1], [1, 1, 2]]) (.size 1), 0, [[0, 0, 0], [0, 0, 0]], [], (), (), (), some (), []⟩
    let p := (renderPiecewise stillStudio .points plainCall s).1.picture 1
    (renderPiecewise stillStudio .points plainCall s).2 = .ok () ∧
    matrixOf stillStudio plainCall s = some () ∧
    (p.shapeAt 0, p.colourOf .face 0, p.widthOf 0) = (some [[1, 1]], some [0, 1, 0, 1], some 4) ∧
    (p.shapeAt 1, p.colourOf .face 1, p.widthOf 1) = (some [[0, 0]], some [1, 0, 0, 1], some 3) := by
  decide +kernel

/-- … two segments, two paths and two polygons. -/
example :
    let rows := [[0, 0, 1], [1, 1, 2], [2, 2, 3], [3, 3, 4]]
    let s : Canvassed Unit Evald :=
      ⟨twoVars (.rows rows) (.size 2), 0, [[0], [0]], [[0], [0]], (), (), (), some (), []⟩
    let t := { s with positions := rows }
    let p := (renderPiecewise stillStudio .segments plainCall s).1.picture 1
    let q := (renderPiecewise stillStudio .paths plainCall t).1.picture 1
    let r := (renderPiecewise stillStudio .polygons plainCall t).1.picture 1
    (renderPiecewise stillStudio .segments plainCall s).2 = .ok () ∧
    (p.shapeAt 0, p.colourOf .edge 0, p.widthOf 0) = (some [[2, 2], [3, 3]], some [1, 1, 0, 1], some 4) ∧
    (q.shapeAt 1, q.colourOf .edge 1, q.widthOf 1) = (some [[0, 0], [1, 1]], some [0, 0, 1, 1], some 3) ∧
    (r.shapeAt 0, r.colourOf .face 0) = (some [[2, 2], [3, 3]], some [0, 1, 0, 1]) := by
  decide +kernel

/-- **C95 fails**: four points in one colour, given as an array of four numbers, are drawn in another one,
and it depends on their depths in which. -/
theorem shown_points_fails :
    let v := twoVars (.rows [[0, 0, 1], [1, 1, 2], [2, 2, 3], [3, 3, 4]]) (.size 1)
    let v := { v with
      fill := fun _ => .ok (.array (.numbers [1, 0, 0, 1/2])), width := fun _ => .ok (.number 1) }
    let s : Canvassed Unit Evald :=
      ⟨v, 0, List.replicate 4 [0, 0, 0], [], (), (), (), some (), []⟩
    (renderPiecewise stillStudio .points plainCall s).2 = .ok () ∧
    ((renderPiecewise stillStudio .points plainCall s).1.picture 1).colourOf .face 0 =
      some [1/2, 0, 0, 1] := by
  decide +kernel

/-- … and of two pixels the nearer is drawn first, so that the farther one hides it. -/
theorem shown_pixels_fails :
    let s : Canvassed Unit Evald :=
      ⟨twoVars (.rows [[0, 0, 1], [0, 0, 2]]) (.size 1), 0, [[0, 0, 0], [0, 0, 0]], [], (), (), (), some (), []⟩
    let p := (renderPiecewise stillStudio .pixels plainCall s).1.picture 1
    (renderPiecewise stillStudio .pixels plainCall s).2 = .ok () ∧
    stillStudio.depth () [0, 0, 1] < stillStudio.depth () [0, 0, 2] ∧
    p.colourOf .face 0 = some [1, 0, 0, 1] ∧ p.colourOf .face 1 = some [0, 1, 0, 1] := by
  decide +kernel

/-! ### C90 for all kinds of visuals -/

/-- An attribute given in some form, as a variable. -/
def formed (g : Given) : Source Evald := fun _ => evalGiven g

/-- **C90 for all kinds, as far as it holds.** In every history of every kind of visual, an attribute that is
not given as a list (positions included) might as well have been given as an array. (Missing: lists, whose
colours go by the rank in the drawing, as the theorems above say.) -/
theorem forms_alike_partial (b : Studio M G) (k : VKind) (s : Canvassed M G) (attr : Source Evald → Assign)
    {g : Given} (hg : ¬ g.isList) (before after : List (Happening M)) :
    happened b k s (before ++ .assign (attr (formed g)) :: after) =
      happened b k s (before ++ .assign (attr (formed g.asArray)) :: after) := by
  have : formed g = formed g.asArray := funext fun _ => evalGiven_asArray hg
  rw [this]

/-- **C90 for all kinds, where it fails.** Two segments with two colours: as an array each keeps its own, as a
list the farther one gets the first. -/
theorem forms_alike_fails :
    ∃ (attr : Source Evald → Assign) (v : Nested) (s : Canvassed Unit Evald),
      ((happened stillStudio .segments s [.assign (attr (formed (.array v))), .render plainCall]).picture 1).colourOf
          .edge 0 = some [1, 0] ∧
      ((happened stillStudio .segments s [.assign (attr (formed (.list v))), .render plainCall]).picture 1).colourOf
          .edge 0 = some [0, 1] := by
  refine ⟨.line, .rows [[0, 1], [1, 0]],
    ⟨twoVars (.rows [[0, 0, 1, 1, 1, 1], [2, 2, 2, 3, 3, 2]]) (.size 1), 0, [[0], [0]], [[0], [0]], (), (), (),
      some (), []⟩, ?_⟩
  decide +kernel

end Verif
