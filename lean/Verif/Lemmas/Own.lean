import Verif.Spec.Own
import Verif.Lemmas.Strict
import Verif.Lemmas.Success
import Verif.Lemmas.FollowText

/- For C88: handlers of users have the properties of the library's. -/

namespace JsonStruct

theorem fails_run {e : Err} : {T : Type} → (g : OProg T) → g.Fails e → ∀ c, ∃ v d, ∀ n, g.run n c = some (e, v, d)
  | _, .ret e' v, h, c => by
    obtain rfl : e' = e := h
    exact ⟨v, c, fun _ => rfl⟩
  | _, .store e' k, h, c => fails_run k h { c with error := e' }

/-! ### Reading ends, and success is success -/

theorem each_sound {body : S → Nat → Ctx → Option (Err × (Bool × S) × Ctx)}
    (hb : ∀ s c, c.Sane → ∃ r, (∀ n, c.left < n → body s n c = some r) ∧ (r.1 = .noError → c.Acc r.2.2)) :
    ∀ (m : Nat) (s : S) (c : Ctx), c.Sane → c.left < m →
      ∃ r, (∀ f n, c.left < f → c.left < n → eachTo body f n s c = some r) ∧ (r.1 = .noError → c.Acc r.2.2)
  | 0, _, _, _, h => absurd h (Nat.not_lt_zero _)
  | m + 1, s, c, hc, hm => by
    obtain ⟨r, h1, h2⟩ := hb s c hc
    by_cases he : r.1 ≠ .noError ∨ r.2.1.1 = false
    · refine ⟨(r.1, r.2.1.2, r.2.2), fun f n hf hn => ?_, h2⟩
      obtain ⟨n, rfl⟩ : ∃ k, n = k + 1 := ⟨n - 1, by omega⟩
      rw [eachTo, h1 f hf, Option.bind_some, if_pos he]
    · have he1 : r.1 = .noError := by
        by_cases h : r.1 = .noError
        · exact h
        · exact absurd (.inl h) he
      have ha := h2 he1
      obtain ⟨k1, k2, k3⟩ := accepted_keeps ha hc.1 hc.2
      have hr : r.2.2.Sane := ⟨k1, k2⟩
      have hl : r.2.2.left ≤ c.left := k3
      by_cases hn : r.2.2.next.error = .noError
      · have hlt := next_left hr hn
        obtain ⟨q, g1, g2⟩ := each_sound hb m r.2.1.2 r.2.2.next (next_sane hr) (by omega)
        refine ⟨q, fun f n hf hn' => ?_, fun h => ha.trans (Ctx.Acc.trans ?_ (g2 h))⟩
        · obtain ⟨n, rfl⟩ : ∃ k, n = k + 1 := ⟨n - 1, by omega⟩
          rw [eachTo, h1 f hf, Option.bind_some, if_neg he, if_neg (by simp [hn])]
          exact g1 f n (by omega) (by omega)
        · exact .call (t' := r.2.2.next.tz) (k' := r.2.2.next.token) (by rw [← hn]; rfl) .refl
      · refine ⟨(r.2.2.next.error, r.2.1.2, r.2.2.next), fun f n hf hn' => ?_, fun h => absurd h hn⟩
        obtain ⟨n, rfl⟩ : ∃ k, n = k + 1 := ⟨n - 1, by omega⟩
        rw [eachTo, h1 f hf, Option.bind_some, if_neg he, if_pos hn]

/-- A part of a program, and what comes behind it. -/
theorem then_sound {f : Nat → Ctx → Option (Err × M × Ctx)} {k : Err → M → Tok → Nat → Ctx → Option (Err × T × Ctx)} {c : Ctx} (hc : c.Sane)
    (hf : ∃ r, (∀ n, c.left < n → f n c = some r) ∧ (r.1 = .noError → c.Acc r.2.2))
    (hk : ∀ v tok d, d.Sane → ∃ r, (∀ n, d.left < n → k .noError v tok n d = some r) ∧ (r.1 = .noError → d.Acc r.2.2))
    (he : ∀ e v tok d, e ≠ .noError → ∃ v' d', ∀ n, k e v tok n d = some (e, v', d')) :
    ∃ r, (∀ n, c.left < n → ((f n c).bind fun r => k r.1 r.2.1 r.2.2.token.tok n r.2.2) = some r) ∧ (r.1 = .noError → c.Acc r.2.2) := by
  obtain ⟨r, h1, h2⟩ := hf
  by_cases hr : r.1 = .noError
  · have ha := h2 hr
    obtain ⟨k1, k2, k3⟩ := accepted_keeps ha hc.1 hc.2
    obtain ⟨q, g1, g2⟩ := hk r.2.1 r.2.2.token.tok r.2.2 ⟨k1, k2⟩
    refine ⟨q, fun n hn => ?_, fun h => ha.trans (g2 h)⟩
    rw [h1 n hn, Option.bind_some, hr]
    exact g1 n (Nat.lt_of_le_of_lt k3 hn)
  · obtain ⟨v', d', g⟩ := he r.1 r.2.1 r.2.2.token.tok r.2.2 hr
    refine ⟨(r.1, v', d'), fun n hn => ?_, fun h => absurd h hr⟩
    rw [h1 n hn, Option.bind_some, g n]

mutual
theorem OType.sound : {T : Type} → (t : OType T) → t.NoMap → t.PassesOn → Handler.Sound t.handler.to
  | _, .lib t, h, _ => t.sound h
  | _, .own _ _ f _, h, g => fun old c hc => (f old c.token.tok).sound (h old c.token.tok) (g old c.token.tok) c hc
  | _, .nullable t, h, g => nullable_sound (t.sound h g)
  | _, .nullableChecked t, h, g => nullableChecked_sound (t.sound h g)
  | _, .optional t, h, g => t.sound h g
  | _, .optionalChecked t, h, g => optionalChecked_sound (t.sound h g)
  | _, .stdOptional t, h, g => stdOptional_sound (t.sound h g)
  | _, .sharedPtr t, h, g => ptr_sound (t.sound h g)
  | _, .uniquePtr t, h, g => ptr_sound (t.sound h g)
  | _, .silentVector t, h, g => vec_sound (t.sound h g)
  | _, .silentUniquePtr t, h, g => ptr_sound (t.sound h g)
  | _, .vector t, h, g => vec_sound (t.sound h g)
  | _, .oneOrMany t, h, g => oneOrMany_sound (t.sound h g)
  | _, .array N t, h, g => arr_sound N (t.sound h g)
  | _, .arrayVariable N t, h, g => avc_sound N (t.sound h g)
  | _, .tuple ts, h, g => tuple_sound (ts.sound h g)
  | _, .set _ ins t, h, g => set_sound ins (t.sound h g)
  | _, .struct _ s, h, g => struct_sound (all_visit (P := fun m => Handler.Sound m.to) _ (s.sound h g) 0 [])
theorem OTypes.sound : {Ts : Type} → (ts : OTypes Ts) → ts.NoMap → ts.PassesOn → Handler.Sound ts.handler.to
  | _, .nil, _, _ => tupNil_sound
  | _, .cons t ts, h, g => tupCons_sound (t.sound h.1 g.1) (ts.sound h.2 g.2)
theorem OStruct.sound : {T : Type} → (s : OStruct T) → s.NoMap → s.PassesOn → s.meta.All (fun m => Handler.Sound m.to)
  | _, .mk ms ss, h, g => .mk (ms.sound h.1 g.1) (ss.sound h.2 g.2)
theorem OMembers.sound : {T : Type} → (ms : OMembers T) → ms.NoMap → ms.PassesOn → ∀ m ∈ ms.members, Handler.Sound m.to
  | _, .nil, _, _, m, hm => by simp [OMembers.members] at hm
  | _, .cons names t get set ms, h, g, m, hm => by
    rw [OMembers.members] at hm
    rcases List.mem_cons.mp hm with rfl | hm
    · exact memberOf_sound (t.sound h.1 g.1) _ _ _ _
    · exact ms.sound h.2 g.2 m hm
theorem OSupers.sound : {T : Type} → (ss : OSupers T) → ss.NoMap → ss.PassesOn → SupersAll (fun m => Handler.Sound m.to) ss.supers
  | _, .nil, _, _ => .nil
  | _, .cons _ get set s ss, h, g =>
    .cons (all_up (fun _ hm => memberUp_sound hm get set) _ (s.sound h.1 g.1)) (ss.sound h.2 g.2)
theorem OProg.sound : {T : Type} → (p : OProg T) → p.NoMap → p.PassesOn → ∀ c, c.Sane →
    ∃ r, (∀ n, c.left < n → p.run n c = some r) ∧ (r.1 = .noError → c.Acc r.2.2)
  | _, .ret e v, _, _, c, _ => ⟨(e, v, c), fun _ _ => rfl, fun _ => .refl c⟩
  | _, .store e k, h, g, c, hc => by
    obtain ⟨r, h1, h2⟩ := k.sound h g { c with error := e } hc
    exact ⟨r, h1, h2⟩
  | _, .next k, h, g, c, hc => by
    by_cases hn : c.next.error = .noError
    · obtain ⟨r, h1, h2⟩ := (k c.next.error c.next.token.tok).sound (h _ _) (g _ _).1 c.next (next_sane hc)
      have hl := next_left hc hn
      refine ⟨r, fun n hln => h1 n (by omega), fun he => Ctx.Acc.trans ?_ (h2 he)⟩
      exact .call (t' := c.next.tz) (k' := c.next.token) (by rw [← hn]; rfl) .refl
    · obtain ⟨e', he, hf⟩ := (g c.next.error c.next.token.tok).2 hn
      obtain ⟨v, d, hr⟩ := fails_run _ hf c.next
      exact ⟨(e', v, d), fun n _ => hr n, fun h => absurd h he⟩
  | _, .call t old k, h, g, c, hc =>
    then_sound (k := fun e v tok n d => (k e v tok).run n d) hc (t.sound h.1 g.1 old c hc)
      (fun v tok d hd => (k .noError v tok).sound (h.2 _ _ _) (g.2 _ _ _).1 d hd) fun e v tok d he => fails_run _ ((g.2 e v tok).2 he) d
  | _, .each s body k, h, g, c, hc => by
    obtain ⟨r, h1, h2⟩ := each_sound (body := fun s n c => (body s c.token.tok).run n c)
      (fun s c hc => (body s c.token.tok).sound (h.1 s c.token.tok) (g.1 s c.token.tok) c hc) (c.left + 1) s c hc (by omega)
    exact then_sound (k := fun e v tok n d => (k e v tok).run n d)
      (f := fun n c => eachTo (fun s n c => (body s c.token.tok).run n c) n n s c) hc ⟨r, fun n hn => h1 n n hn hn, h2⟩
      (fun v tok d hd => (k .noError v tok).sound (h.2 _ _ _) (g.2 _ _ _).1 d hd) fun e v tok d he => fails_run _ ((g.2 e v tok).2 he) d
end

/-! ### Strict options -/

section
variable {p : POpts} {b : Ctx}

theorem then_two_runs {c : Ctx} {x y : Option (Err × M × Ctx)} {k : Err → M → Tok → Nat → Ctx → Option (Err × T × Ctx)} {n : Nat} (h : TwoOut p b c x y)
    (hk : ∀ e v tok d, d.Permits → TwoOut p b d (k e v tok n d) (k e v tok n (b.since p d)))
    (he : ∀ e v tok d, e ≠ .noError → ∃ v' d', ∀ n, k e v tok n d = some (e, v', d')) :
    TwoOut p b c (x.bind fun r => k r.1 r.2.1 r.2.2.token.tok n r.2.2) (y.bind fun r => k r.1 r.2.1 r.2.2.token.tok n r.2.2) := by
  refine h.bind ?_ ?_
  · rintro ⟨e, v, d⟩ hd
    exact hk e v d.token.tok d hd.permits
  · rintro ⟨e, v, d⟩ hs
    obtain ⟨v', d', g⟩ := he e v d.token.tok d (strictErr_ne (show StrictErr p e from hs))
    exact ⟨(e, v', d'), g n, hs⟩

theorem each_two_runs {body : S → Nat → Ctx → Option (Err × (Bool × S) × Ctx)} {f : Nat}
    (hb : ∀ s c, c.Permits → TwoOut p b c (body s f c) (body s f (b.since p c))) :
    ∀ (n : Nat) (s : S) (c : Ctx), c.Permits → TwoOut p b c (eachTo body f n s c) (eachTo body f n s (b.since p c))
  | 0, _, _, _ => .none
  | n + 1, s, c, hc => by
    rw [eachTo, eachTo]
    refine (hb s c hc).bind ?_ ?_
    · rintro ⟨e, m, d⟩ hd
      replace hd : d.Permits := hd.permits
      exact .ite (fun _ => .ret hd _ _) fun _ => .ite (fun _ => (TwoOut.ret hd.next _ _).at rfl rfl) fun _ => (each_two_runs hb n _ d.next hd.next).at rfl rfl
    · rintro ⟨e, m, d⟩ hs
      exact ⟨(e, m.2, d), by simp [strictErr_ne (show StrictErr p e from hs)], hs⟩

mutual
theorem OType.runs : {T : Type} → (t : OType T) → t.PassesOn → TwoRuns p b t.handler.to
  | _, .lib t, _ => t.runs
  | _, .own _ _ f _, g => fun n old c hc => (f old c.token.tok).runs (g old c.token.tok) n c hc
  | _, .nullable t, g => nullable_two_runs (t.runs g)
  | _, .nullableChecked t, g => nullableChecked_two_runs (t.runs g)
  | _, .optional t, g => t.runs g
  | _, .optionalChecked t, g => optionalChecked_two_runs (t.runs g)
  | _, .stdOptional t, g => stdOptional_two_runs (t.runs g)
  | _, .sharedPtr t, g => ptr_two_runs (t.runs g)
  | _, .uniquePtr t, g => ptr_two_runs (t.runs g)
  | _, .silentVector t, g => vec_two_runs (t.runs g)
  | _, .silentUniquePtr t, g => ptr_two_runs (t.runs g)
  | _, .vector t, g => vec_two_runs (t.runs g)
  | _, .oneOrMany t, g => oneOrMany_two_runs (t.runs g)
  | _, .array N t, g => arr_two_runs N (t.runs g)
  | _, .arrayVariable N t, g => avc_two_runs N (t.runs g)
  | _, .tuple ts, g => tuple_two_runs (ts.runs g)
  | _, .set _ ins t, g => set_two_runs ins (t.runs g)
  | _, .map ins t, g => map_two_runs ins (t.runs g)
  | _, .struct _ s, g => struct_two_runs (all_visit (P := fun m => TwoRuns p b m.to) _ (s.runs g) 0 [])
theorem OTypes.runs : {Ts : Type} → (ts : OTypes Ts) → ts.PassesOn → TwoRuns p b ts.handler.to
  | _, .nil, _ => tupNil_two_runs
  | _, .cons t ts, g => tupCons_two_runs (t.runs g.1) (ts.runs g.2)
theorem OStruct.runs : {T : Type} → (s : OStruct T) → s.PassesOn → s.meta.All (fun m => TwoRuns p b m.to)
  | _, .mk ms ss, g => .mk (ms.runs g.1) (ss.runs g.2)
theorem OMembers.runs : {T : Type} → (ms : OMembers T) → ms.PassesOn → ∀ m ∈ ms.members, TwoRuns p b m.to
  | _, .nil, _, m, hm => by simp [OMembers.members] at hm
  | _, .cons names t get set ms, g, m, hm => by
    rw [OMembers.members] at hm
    rcases List.mem_cons.mp hm with rfl | hm
    · exact memberOf_two_runs (t.runs g.1) _ _ _ _
    · exact ms.runs g.2 m hm
theorem OSupers.runs : {T : Type} → (ss : OSupers T) → ss.PassesOn → SupersAll (fun m => TwoRuns p b m.to) ss.supers
  | _, .nil, _ => .nil
  | _, .cons _ get set s ss, g =>
    .cons (all_up (fun _ hm => memberUp_two_runs hm get set) _ (s.runs g.1)) (ss.runs g.2)
theorem OProg.runs : {T : Type} → (q : OProg T) → q.PassesOn → ∀ n c, c.Permits → TwoOut p b c (q.run n c) (q.run n (b.since p c))
  | _, .ret e v, _, _, _, hc => .ret hc e v
  | _, .store e k, g, n, c, hc => TwoOut.at (k.runs g n { c with error := e } hc) (c' := c) rfl rfl
  | _, .next k, g, n, c, hc => TwoOut.at ((k c.next.error c.next.token.tok).runs (g _ _).1 n c.next hc.next) (c' := c) rfl rfl
  | _, .call t old k, g, n, c, hc =>
    then_two_runs (k := fun e v tok n d => (k e v tok).run n d) (t.runs g.1 n old c hc)
      (fun e v tok d hd => (k e v tok).runs (g.2 _ _ _).1 n d hd) fun e v tok d he => fails_run _ ((g.2 e v tok).2 he) d
  | _, .each s body k, g, n, c, hc =>
    then_two_runs (k := fun e v tok n d => (k e v tok).run n d)
      (each_two_runs (body := fun s n c => (body s c.token.tok).run n c) (f := n) (fun s c hc => (body s c.token.tok).runs (g.1 s c.token.tok) n c hc) n s c hc)
      (fun e v tok d hd => (k e v tok).runs (g.2 _ _ _).1 n d hd) fun e v tok d he => fails_run _ ((g.2 e v tok).2 he) d
end

end

/-! ### The same tokens, the same value -/

section
variable {S : Follow}

theorem then_follow {M T : Type} {x y : Option (Err × M × Ctx)} {k : Err → M → Tok → Nat → Ctx → Option (Err × T × Ctx)} {n : Nat} (h : S.Out x y)
    (hk : ∀ v tok d d', S.C d d' → S.Out (k .noError v tok n d) (k .noError v tok n d'))
    (he : ∀ e v tok d, e ≠ .noError → ∃ v' d', ∀ n, k e v tok n d = some (e, v', d')) :
    S.Out (x.bind fun r => k r.1 r.2.1 r.2.2.token.tok n r.2.2) (y.bind fun r => k r.1 r.2.1 r.2.2.token.tok n r.2.2) := by
  refine Follow.Out.bind h ?_ ?_
  · intro e v d w d' hne
    obtain ⟨v', d'', g⟩ := he e v d.token.tok d hne
    simp [g n, hne]
  · intro v d d' hd
    have := hk v d.token.tok d d' hd
    simpa only [hd.tok] using this

theorem each_follow {A : Type} {body : A → Nat → Ctx → Option (Err × (Bool × A) × Ctx)} {f : Nat}
    (hb : ∀ s c c', S.C c c' → S.Out (body s f c) (body s f c')) :
    ∀ (n : Nat) (s : A) (c c' : Ctx), S.C c c' → S.Out (eachTo body f n s c) (eachTo body f n s c')
  | 0, _, _, _, _ => .none
  | n + 1, s, c, c', hc => by
    rw [eachTo, eachTo]
    refine Follow.Out.bind (hb s c c' hc) ?_ ?_
    · intro e v d w d' hne
      simp [hne]
    · intro v d d' hd
      by_cases hv : v.1 = false
      · simp only [hv, or_true, if_true]
        exact hd.out _ _
      · by_cases hn : d.next.error = .noError
        · simp only [hv, hn, hd.nextError hn, or_false, ne_eq, not_true_eq_false, if_false]
          exact each_follow hb n _ _ _ (hd.next hn)
        · simp only [hv, hn, or_false, ne_eq, not_true_eq_false, if_false, not_false_eq_true, if_true]
          exact .bad hn

mutual
theorem OType.follow : {T : Type} → (t : OType T) → t.NoMap → t.PassesOn → S.H t.handler.to
  | _, .lib t, h, _ => t.follow (.inr h)
  | _, .own _ _ f _, h, g => fun n old c c' hc => by
    have := (f old c.token.tok).follow (h old c.token.tok) (g old c.token.tok) n c c' hc
    simp only [OType.handler, ← hc.tok]
    exact this
  | _, .nullable t, h, g => nullable_follow (t.follow h g)
  | _, .nullableChecked t, h, g => nullableChecked_follow (t.follow h g)
  | _, .optional t, h, g => t.follow h g
  | _, .optionalChecked t, h, g => optionalChecked_follow (t.follow h g)
  | _, .stdOptional t, h, g => stdOptional_follow (t.follow h g)
  | _, .sharedPtr t, h, g => ptr_follow (t.follow h g)
  | _, .uniquePtr t, h, g => ptr_follow (t.follow h g)
  | _, .silentVector t, h, g => vec_follow (t.follow h g)
  | _, .silentUniquePtr t, h, g => ptr_follow (t.follow h g)
  | _, .vector t, h, g => vec_follow (t.follow h g)
  | _, .oneOrMany t, h, g => oneOrMany_follow (t.follow h g)
  | _, .array N t, h, g => arr_follow N (t.follow h g)
  | _, .arrayVariable N t, h, g => avc_follow N (t.follow h g)
  | _, .tuple ts, h, g => tuple_follow (ts.follow h g)
  | _, .set _ ins t, h, g => set_follow ins (t.follow h g)
  | _, .struct _ s, h, g => struct_follow (all_visit (P := fun m => S.H m.to) _ (s.follow h g) 0 [])
theorem OTypes.follow : {Ts : Type} → (ts : OTypes Ts) → ts.NoMap → ts.PassesOn → S.H ts.handler.to
  | _, .nil, _, _ => tupNil_follow
  | _, .cons t ts, h, g => tupCons_follow (t.follow h.1 g.1) (ts.follow h.2 g.2)
theorem OStruct.follow : {T : Type} → (s : OStruct T) → s.NoMap → s.PassesOn → s.meta.All (fun m => S.H m.to)
  | _, .mk ms ss, h, g => .mk (ms.follow h.1 g.1) (ss.follow h.2 g.2)
theorem OMembers.follow : {T : Type} → (ms : OMembers T) → ms.NoMap → ms.PassesOn → ∀ m ∈ ms.members, S.H m.to
  | _, .nil, _, _, m, hm => by simp [OMembers.members] at hm
  | _, .cons _ t _ _ ms, h, g, m, hm => by
    rw [OMembers.members] at hm
    rcases List.mem_cons.mp hm with rfl | hm
    · exact memberOf_follow (t.follow h.1 g.1) _ _ _ _
    · exact ms.follow h.2 g.2 m hm
theorem OSupers.follow : {T : Type} → (ss : OSupers T) → ss.NoMap → ss.PassesOn → SupersAll (fun m => S.H m.to) ss.supers
  | _, .nil, _, _ => .nil
  | _, .cons _ get set s ss, h, g =>
    .cons (all_up (fun _ hm => memberUp_follow hm get set) _ (s.follow h.1 g.1)) (ss.follow h.2 g.2)
theorem OProg.follow : {T : Type} → (q : OProg T) → q.NoMap → q.PassesOn → ∀ n c c', S.C c c' → S.Out (q.run n c) (q.run n c')
  | _, .ret e v, _, _, _, _, _, hc => hc.out e v
  | _, .store e k, h, g, n, _, _, hc => k.follow h g n _ _ (hc.set e)
  | _, .next k, h, g, n, c, c', hc => by
    by_cases hn : c.next.error = .noError
    · have := (k c.next.error c.next.token.tok).follow (h _ _) (g _ _).1 n c.next c'.next (hc.next hn)
      simp only [OProg.run]
      simpa only [hn, hc.nextError hn, (hc.next hn).tok] using this
    · obtain ⟨e', he, hf⟩ := (g c.next.error c.next.token.tok).2 hn
      obtain ⟨v, d, hr⟩ := fails_run _ hf c.next
      simp only [OProg.run, hr n]
      exact .bad he
  | _, .call t old k, h, g, n, c, c', hc =>
    then_follow (k := fun e v tok n d => (k e v tok).run n d) (t.follow h.1 g.1 n old c c' hc)
      (fun v tok d d' hd => (k .noError v tok).follow (h.2 _ _ _) (g.2 _ _ _).1 n d d' hd) fun e v tok d he => fails_run _ ((g.2 e v tok).2 he) d
  | _, .each s body k, h, g, n, c, c', hc =>
    then_follow (k := fun e v tok n d => (k e v tok).run n d)
      (each_follow (body := fun s n c => (body s c.token.tok).run n c) (f := n) (fun s c c' hc => by
        have := (body s c.token.tok).follow (h.1 s c.token.tok) (g.1 s c.token.tok) n c c' hc
        simpa only [hc.tok] using this) n s c c' hc)
      (fun v tok d d' hd => (k .noError v tok).follow (h.2 _ _ _) (g.2 _ _ _).1 n d d' hd) fun e v tok d he => fails_run _ ((g.2 e v tok).2 he) d
end

end

/-- Two tokenizers that give the same answers up to the first that is an error. -/
def followAlike : Follow where
  R := AnswersAlike
  Dead := fun _ => False
  sure := False
  tok := fun h => by cases h <;> assumption
  next := by
    intro t k t' k' h he
    cases h with
    | fails _ hne h1 _ _ => rw [h1] at he; exact absurd he hne
    | token _ h1 h2 hs => rw [h1, h2]; exact ⟨rfl, hs⟩
  fail := fun h => h.elim
  dead := fun h => h.elim

/-! ### The same answers, the same outcome -/

section
variable {S : Likeness}

theorem then_alike {M T : Type} (hf : S.full) (hv : S.vals) {x y : Option (Err × M × Ctx)} {k : Err → M → Tok → Nat → Ctx → Option (Err × T × Ctx)} {n : Nat}
    (h : Likeness.Opt S.Out S x y) (hk : ∀ e v tok d d', S.C d d' → Likeness.Opt S.Out S (k e v tok n d) (k e v tok n d')) :
    Likeness.Opt S.Out S (x.bind fun r => k r.1 r.2.1 r.2.2.token.tok n r.2.2) (y.bind fun r => k r.1 r.2.1 r.2.2.token.tok n r.2.2) := by
  refine Likeness.Opt.bind h ?_
  rintro ⟨e, v, d⟩ ⟨e', v', d'⟩ ho
  obtain rfl : e = e' := ho.err
  obtain rfl : v = v' := ho.vals hv
  have hd : S.C d d' := ho.after.all hf
  have := hk e v d.token.tok d d' hd
  simpa only [hd.tok] using this

theorem each_alike {A : Type} (hf : S.full) (hv : S.vals) {body : A → Nat → Ctx → Option (Err × (Bool × A) × Ctx)} {f : Nat}
    (hb : ∀ s c c', S.C c c' → Likeness.Opt S.Out S (body s f c) (body s f c')) :
    ∀ (n : Nat) (s : A) (c c' : Ctx), S.C c c' → Likeness.Opt S.Out S (eachTo body f n s c) (eachTo body f n s c')
  | 0, _, _, _, _ => .none
  | n + 1, s, c, c', hc => by
    rw [eachTo, eachTo]
    refine Likeness.Opt.bind (hb s c c' hc) ?_
    rintro ⟨e, v, d⟩ ⟨e', v', d'⟩ ho
    obtain rfl : e = e' := ho.err
    obtain rfl : v = v' := ho.vals hv
    have hd : S.C d d' := ho.after.all hf
    have hn := hd.nextError
    by_cases h1 : e ≠ .noError ∨ v.1 = false
    · simp only [h1, if_true]
      exact .some (hd.out _ _)
    · simp only [h1, if_false]
      by_cases h2 : d.next.error ≠ .noError
      · simp only [← hn, h2, if_true, not_false_eq_true, ne_eq]
        exact .some ((hd.fail.all hf).out _ _)
      · simp only [← hn, h2, if_false]
        exact each_alike hf hv hb n _ _ _ (hd.fail.all hf)

mutual
theorem OType.alike (hf : S.full) (hv : S.vals) : {T : Type} → (t : OType T) → S.H t.handler.to
  | _, .lib t => t.alike (.inl hf) (.inl hf)
  | _, .own _ _ f _ => fun n old c c' hc => by
    have := (f old c.token.tok).alike hf hv n c c' hc
    simp only [OType.handler, ← hc.tok]
    exact this
  | _, .nullable t => nullable_alike (t.alike hf hv)
  | _, .nullableChecked t => nullableChecked_alike (t.alike hf hv)
  | _, .optional t => t.alike hf hv
  | _, .optionalChecked t => optionalChecked_alike (t.alike hf hv)
  | _, .stdOptional t => stdOptional_alike (t.alike hf hv)
  | _, .sharedPtr t => ptr_alike (t.alike hf hv)
  | _, .uniquePtr t => ptr_alike (t.alike hf hv)
  | _, .silentVector t => vec_alike (t.alike hf hv)
  | _, .silentUniquePtr t => ptr_alike (t.alike hf hv)
  | _, .vector t => vec_alike (t.alike hf hv)
  | _, .oneOrMany t => oneOrMany_alike (t.alike hf hv)
  | _, .array N t => arr_alike N (t.alike hf hv)
  | _, .arrayVariable N t => avc_alike N (t.alike hf hv)
  | _, .tuple ts => tuple_alike (ts.alike hf hv)
  | _, .set _ ins t => set_alike ins (t.alike hf hv)
  | _, .map ins t => map_alike hf ins (t.alike hf hv)
  | _, .struct _ s => struct_alike (all_visit (P := fun m => S.H m.to) _ (s.alike hf hv) 0 [])
theorem OTypes.alike (hf : S.full) (hv : S.vals) : {Ts : Type} → (ts : OTypes Ts) → S.H ts.handler.to
  | _, .nil => tupNil_alike
  | _, .cons t ts => tupCons_alike (t.alike hf hv) (ts.alike hf hv)
theorem OStruct.alike (hf : S.full) (hv : S.vals) : {T : Type} → (s : OStruct T) → s.meta.All (fun m => S.H m.to)
  | _, .mk ms ss => .mk (ms.alike hf hv) (ss.alike hf hv)
theorem OMembers.alike (hf : S.full) (hv : S.vals) : {T : Type} → (ms : OMembers T) → ∀ m ∈ ms.members, S.H m.to
  | _, .nil, m, hm => by simp [OMembers.members] at hm
  | _, .cons _ t _ _ ms, m, hm => by
    rw [OMembers.members] at hm
    rcases List.mem_cons.mp hm with rfl | hm
    · exact memberOf_alike (t.alike hf hv) _ _ _ _
    · exact ms.alike hf hv m hm
theorem OSupers.alike (hf : S.full) (hv : S.vals) : {T : Type} → (ss : OSupers T) → SupersAll (fun m => S.H m.to) ss.supers
  | _, .nil => .nil
  | _, .cons _ get set s ss => .cons (all_up (fun _ hm => memberUp_alike hm get set) _ (s.alike hf hv)) (ss.alike hf hv)
theorem OProg.alike (hf : S.full) (hv : S.vals) : {T : Type} → (q : OProg T) → ∀ n c c', S.C c c' → Likeness.Opt S.Out S (q.run n c) (q.run n c')
  | _, .ret e v, _, _, _, hc => .some (hc.out e v)
  | _, .store e k, n, _, _, hc => k.alike hf hv n _ _ (hc.set e)
  | _, .next k, n, c, c', hc => by
    have h1 := hc.fail.all hf
    have := (k c.next.error c.next.token.tok).alike hf hv n c.next c'.next h1
    simp only [OProg.run]
    simpa only [hc.nextError, h1.tok] using this
  | _, .call t old k, n, c, c', hc =>
    then_alike (k := fun e v tok n d => (k e v tok).run n d) hf hv (t.alike hf hv n old c c' hc) fun e v tok d d' hd => (k e v tok).alike hf hv n d d' hd
  | _, .each s body k, n, c, c', hc =>
    then_alike (k := fun e v tok n d => (k e v tok).run n d) hf hv
      (each_alike (body := fun s n c => (body s c.token.tok).run n c) (f := n) hf hv (fun s c c' hc => by
        have := (body s c.token.tok).alike hf hv n c c' hc
        simpa only [hc.tok] using this) n s c c' hc) fun e v tok d d' hd => (k e v tok).alike hf hv n d d' hd
end

end

end JsonStruct
