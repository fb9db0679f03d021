import Verif.ProxyProto.Props
/-! Cases that meet the hypotheses of `Props.lean`, and what the code gets wrong on concrete streams. -/
namespace Verif.ProxyProto
open Verif.Chr Verif.Num

/-- A system that knows two addresses of the first family and one of the second. -/
def sys : Env where
  toBin t := if t = [49, 46, 50, 46, 51, 46, 52] then some [1, 2, 3, 4] else if t = [57, 46, 56, 46, 55, 46, 54] then some [9, 8, 7, 6]
    else if t = [58, 58, 49] then some [0, 0, 0, 0, 0, 0, 0, 0, 0, 0, 0, 0, 0, 0, 0, 1] else none
  toText b := if b = [1, 2, 3, 4] then some [49, 46, 50, 46, 51, 46, 52] else if b = [9, 8, 7, 6] then some [57, 46, 56, 46, 55, 46, 54]
    else if b = [0, 0, 0, 0, 0, 0, 0, 0, 0, 0, 0, 0, 0, 0, 0, 1] then some [58, 58, 49] else none

theorem sys_ok : EnvOk sys := by
  have key : ∀ t b, sys.toBin t = some b → (t = [49, 46, 50, 46, 51, 46, 52] ∧ b = [1, 2, 3, 4]) ∨ (t = [57, 46, 56, 46, 55, 46, 54] ∧ b = [9, 8, 7, 6]) ∨
      (t = [58, 58, 49] ∧ b = [0, 0, 0, 0, 0, 0, 0, 0, 0, 0, 0, 0, 0, 0, 0, 1]) := by
    intro t b h
    dsimp only [sys] at h
    split at h
    · next e => injection h with h; exact .inl ⟨e, h.symm⟩
    · split at h
      · next e => injection h with h; exact .inr (.inl ⟨e, h.symm⟩)
      · split at h
        · next e => injection h with h; exact .inr (.inr ⟨e, h.symm⟩)
        · cases h
  refine ⟨?_, ?_, ?_⟩ <;> intro t b h <;> rcases key t b h with ⟨rfl, rfl⟩ | ⟨rfl, rfl⟩ | ⟨rfl, rfl⟩
  · exact .inl rfl
  · exact .inl rfl
  · exact .inr rfl
  · exact ⟨_, rfl, rfl⟩
  · exact ⟨_, rfl, rfl⟩
  · exact ⟨_, rfl, rfl⟩
  all_goals decide

def both : Flags := ⟨true, true⟩

/-- `binary_pieces`: a header with an extension, cut in the middle of an address, then "hi". -/
example : feed sys both fresh [(headV2 true false [1, 2, 3, 4] [9, 8, 7, 6] 1000 80 [4, 0, 1, 0]).take 19,
      (headV2 true false [1, 2, 3, 4] [9, 8, 7, 6] 1000 80 [4, 0, 1, 0]).drop 19 ++ [104], [105]] =
    .connected ⟨[104, 105], false, some [49, 46, 50, 46, 51, 46, 52], some [57, 46, 56, 46, 55, 46, 54], 1000, 80, .v4, 0⟩ :=
  binary_pieces (proxy := true) (six := false) (s := [1, 2, 3, 4]) (d := [9, 8, 7, 6]) (fun _ => rfl) rfl rfl rfl rfl (by omega) (by omega) (by decide)
    (rest := [104, 105]) (tlv := [4, 0, 1, 0]) rfl

/-- `binary_waits`: the last byte of the extension is missing. -/
example : ∃ p h, feed sys both fresh [(headV2 true false [1, 2, 3, 4] [9, 8, 7, 6] 1000 80 [4, 0, 1, 0]).take 31] = .connecting p h :=
  binary_waits (proxy := true) (six := false) (s := [1, 2, 3, 4]) (d := [9, 8, 7, 6]) (sp := 1000) (dp := 80) (tlv := [4, 0, 1, 0])
    (fun _ => rfl) rfl rfl rfl rfl (by omega) (by omega) (by decide) (by decide) (by decide)

/-- `unknown_pieces`: byte by byte, then "x". -/
example : feed sys both fresh [[80], [82, 79, 88, 89, 32, 85, 78, 75], [78, 79, 87, 78, 13], [10, 120]] =
    .connected ⟨[120], true, none, none, 0, 0, .any, 0⟩ := unknown_pieces (fun _ => rfl) rfl

theorem sys_v4 : AddrText sys [49, 46, 50, 46, 51, 46, 52] [1, 2, 3, 4] := ⟨rfl, by decide, by decide, by decide⟩
theorem sys_v4b : AddrText sys [57, 46, 56, 46, 55, 46, 54] [9, 8, 7, 6] := ⟨rfl, by decide, by decide, by decide⟩
theorem port_1000 : PortText [49, 48, 48, 48] 1000 := ⟨by decide, by decide, by decide, by decide⟩
theorem port_80 : PortText [56, 48] 80 := ⟨by decide, by decide, by decide, by decide⟩
theorem port_50000 : PortText [53, 48, 48, 48, 48] 50000 := ⟨by decide, by decide, by decide, by decide⟩

/-- `text_pieces_partial`: "PROXY TCP4 1.2.3.4 9.8.7.6 1000 80\r\n" in two pieces. -/
example : feed sys both fresh [(headV1 false [49, 46, 50, 46, 51, 46, 52] [57, 46, 56, 46, 55, 46, 54] [49, 48, 48, 48] [56, 48]).take 15,
      (headV1 false [49, 46, 50, 46, 51, 46, 52] [57, 46, 56, 46, 55, 46, 54] [49, 48, 48, 48] [56, 48]).drop 15 ++ [120]] =
    .connected ⟨[120], false, some [49, 46, 50, 46, 51, 46, 52], some [57, 46, 56, 46, 55, 46, 54], 1000, 80, .v4, 0⟩ :=
  text_pieces_partial (six := false) (fun _ => rfl) sys_v4 sys_v4b port_1000 port_80 (rest := [120]) rfl (by
    intro k hk
    have : k = 0 ∨ k = 1 ∨ k = 2 := by simp at hk; omega
    rcases this with rfl | rfl | rfl <;> simp [lateV1, headV1])

/-- `text_pieces_fails`: the same with source port 50000, cut right behind it. -/
example : ∃ e, feed sys both fresh [(headV1 false [49, 46, 50, 46, 51, 46, 52] [57, 46, 56, 46, 55, 46, 54] [53, 48, 48, 48, 48] [56, 48]).take 32,
      (headV1 false [49, 46, 50, 46, 51, 46, 52] [57, 46, 56, 46, 55, 46, 54] [53, 48, 48, 48, 48] [56, 48]).drop 32] = .failed e :=
  text_pieces_fails (six := false) (fun _ => rfl) sys_v4 sys_v4b port_50000 port_80 (rest := []) rfl (by
    intro h
    exact h 1 (by decide) (late_sport (s := [49, 46, 50, 46, 51, 46, 52]) (d := [57, 46, 56, 46, 55, 46, 54]) (ps := [53, 48, 48, 48, 48]) (pd := [56, 48]) rfl))

/-- The same stream in one piece is accepted. -/
example : feed sys both fresh [headV1 false [49, 46, 50, 46, 51, 46, 52] [57, 46, 56, 46, 55, 46, 54] [53, 48, 48, 48, 48] [56, 48] ++ []] =
    .connected ⟨[], false, some [49, 46, 50, 46, 51, 46, 52], some [57, 46, 56, 46, 55, 46, 54], 50000, 80, .v4, 0⟩ :=
  text_whole (six := false) (fun _ => rfl) sys_v4 sys_v4b port_50000 port_80

/-- `unspec_pieces_partial`, `unspec_pieces_fails`: a health check with one extension of four bytes. -/
example : feed sys both fresh [frontV2 false 0 4 ++ [4, 0, 1, 0], [104]] = .connected ⟨[104], true, none, none, 0, 0, .any, 4⟩ :=
  unspec_pieces_partial (proxy := false) (tlv := [4, 0, 1, 0]) (fun _ => rfl) (by decide) (List.prefix_refl _) rfl

example : feed sys both fresh [frontV2 false 0 4 ++ [4, 0], [1, 0] ++ [104]] =
    .connected ⟨[4, 0, 1, 0, 104], true, none, none, 0, 0, .any, 4⟩ :=
  unspec_pieces_fails (x := [4, 0]) (y := [1, 0]) (rest := [104]) (fun _ => rfl) (by decide) (by decide)

/-- `accepted_partial`, `pieces_agree_partial`: their hypotheses on the first stream above. -/
example : ¬ UnspecData (headV2 true false [1, 2, 3, 4] [9, 8, 7, 6] 1000 80 [4, 0, 1, 0] ++ [104, 105]) := by
  intro h; exact absurd h.2.1 (by decide)

/-- `reads_partial`: three reads over a buffer of five bytes. -/
example : reads [1, 2, 3, 4, 5] [(2, .again), (4, .data [6]), (9, .data [7, 8])] = ([1, 2, 3, 4, 5, 6, 7, 8], [], [6, 7, 8]) := by decide +kernel

/-- `roundtrip_binary`, `roundtrip_text_partial`, `endpoints_correct`: two endpoints that can be set, and two that cannot. -/
example : (setEndpoints sys freshW [49, 46, 50, 46, 51, 46, 52] [57, 46, 56, 46, 55, 46, 54] 1000 80).1 = true ∧ (setEndpoints sys freshW [49, 46, 50, 46, 51, 46, 52] [58, 58, 49] 1000 80).1 = false ∧
    (setEndpoints sys freshW [49, 46, 50, 46, 51, 46, 52] [57, 46, 56, 46, 55, 46, 54] 0 80).1 = false := by decide +kernel

example : build sys ⟨true, false⟩ (setEndpoints sys freshW [49, 46, 50, 46, 51, 46, 52] [57, 46, 56, 46, 55, 46, 54] 1000 80).2.1 = headV1 false [49, 46, 50, 46, 51, 46, 52] [57, 46, 56, 46, 55, 46, 54] [49, 48, 48, 48] [56, 48] ∧
    build sys both (setEndpoints sys freshW [49, 46, 50, 46, 51, 46, 52] [57, 46, 56, 46, 55, 46, 54] 1000 80).2.1 = headV2 true false [1, 2, 3, 4] [9, 8, 7, 6] 1000 80 [] := by decide +kernel

/-- `roundtrip_local`: both forms. -/
example : build sys both freshW = frontV2 false 0 0 ∧ build sys ⟨true, false⟩ freshW = [80, 82, 79, 88, 89, 32, 85, 78, 75, 78, 79, 87, 78] ++ [13, 10] := by decide +kernel

/-- `header_sent`: four bytes in three events. -/
example : sends [1, 2, 3, 4] ⟨[], [], false, false⟩ [(true, [.took 1, .block]), (false, [.block]), (false, [.took 2, .took 1])] =
    ⟨[], [1, 2, 3, 4], true, false⟩ := by decide +kernel

/-! ## What the code gets wrong -/

/-- The port of a text header may end in anything: "80x" is port 80. -/
theorem text_port_fails : feed sys both fresh [[80, 82, 79, 88, 89, 32, 84, 67, 80, 52, 32, 49, 46, 50, 46, 51, 46, 52, 32, 57, 46, 56, 46, 55, 46, 54, 32, 49, 48, 48, 48, 32, 56, 48, 120, 13, 10]] =
    .connected ⟨[], false, some [49, 46, 50, 46, 51, 46, 52], some [57, 46, 56, 46, 55, 46, 54], 1000, 80, .v4, 0⟩ := by decide +kernel

/-- A text header may announce one family and give addresses of the other: "TCP4" with "::1". -/
theorem text_family_fails : feed sys both fresh [[80, 82, 79, 88, 89, 32, 84, 67, 80, 52, 32, 58, 58, 49, 32, 58, 58, 49, 32, 49, 48, 48, 48, 32, 56, 48, 13, 10]] =
    .connected ⟨[], false, some [58, 58, 49], some [58, 58, 49], 1000, 80, .v4, 0⟩ := by decide +kernel

/-- "PROXY UNKNOWN" followed by addresses, which the protocol asks receivers to ignore, is refused. -/
theorem unknown_text_fails : feed sys both fresh [[80, 82, 79, 88, 89, 32, 85, 78, 75, 78, 79, 87, 78, 32, 58, 58, 49, 32, 58, 58, 49, 32, 49, 48, 48, 48, 32, 56, 48, 13, 10]] =
    .failed .badProto := by decide +kernel

/-- A health check (LOCAL) of a family with addresses, all zero as the protocol allows, is refused. -/
theorem local_zero_fails : (feed sys both fresh [headV2 false false [1, 2, 3, 4] [9, 8, 7, 6] 0 0 []]) = .failed .v2Sport := by decide +kernel

/-- A relayed connection (PROXY) of unspecified family is reported as relayed, with no addresses. -/
theorem proxy_unspec_fails : feed sys both fresh [frontV2 true 0 0] = .connected ⟨[], false, none, none, 0, 0, .any, 0⟩ := by decide +kernel

end Verif.ProxyProto
