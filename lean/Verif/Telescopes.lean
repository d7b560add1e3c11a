/-
The shapes of the telescopes that come with batoid: classes, names and media of all optics of the files in /repo/batoid/data.
Generated by tools/telescopes.py; files of the same shape share a definition.
-/
import Verif.Optic

namespace Batoid

/-- The value of `type` in the configuration of an optic: batoid/parse.py L126-215. -/
inductive ShapeType where
  | mirror | refractive | baffle | detector | plain | screen | lens | compound
deriving DecidableEq

/-- The media named in the configuration of an optic; equal numbers mean equal media. -/
structure ShapeMedia where
  inMedium : Option ℕ
  outMedium : Option ℕ
  medium : Option ℕ

/-- Types, names and media of an optic and its items. -/
inductive Shape where
  | part (type : ShapeType) (name : Name) (media : ShapeMedia)
  | group (type : ShapeType) (name : Name) (media : ShapeMedia) (items : List Shape)

/-- AuxTel.yaml -/
def shape_AuxTel : Shape :=
  .group .compound ['A', 'u', 'x', 'T', 'e', 'l'] ⟨some 0, none, some 0⟩ [
    .part .baffle ['B', 'a', 'f', 'f', 'l', 'e', '_', 'M', '2', 'c'] ⟨none, none, none⟩,
    .part .baffle ['B', 'a', 'f', 'f', 'l', 'e', '_', 'M', '1'] ⟨none, none, none⟩,
    .part .mirror ['M', '1'] ⟨none, none, none⟩,
    .part .baffle ['B', 'a', 'f', 'f', 'l', 'e', '_', 'M', '2', 'a'] ⟨none, none, none⟩,
    .part .baffle ['B', 'a', 'f', 'f', 'l', 'e', '_', 'M', '2', 'b'] ⟨none, none, none⟩,
    .part .mirror ['M', '2'] ⟨none, none, none⟩,
    .part .mirror ['M', '3'] ⟨none, none, none⟩,
    .group .compound ['L', 'A', 'T', 'I', 'S', 'S'] ⟨none, none, none⟩ [
      .group .lens ['L', '1'] ⟨none, none, some 1⟩ [
        .part .refractive ['L', '1', '_', 'e', 'n', 't', 'r', 'a', 'n', 'c', 'e'] ⟨none, none, none⟩,
        .part .refractive ['L', '1', '_', 'e', 'x', 'i', 't'] ⟨none, none, none⟩],
      .group .lens ['F', 'i', 'l', 't', 'e', 'r'] ⟨none, none, some 1⟩ [
        .part .refractive ['F', 'i', 'l', 't', 'e', 'r', '_', 'e', 'n', 't', 'r', 'a', 'n', 'c', 'e'] ⟨none, none, none⟩,
        .part .refractive ['F', 'i', 'l', 't', 'e', 'r', '_', 'e', 'x', 'i', 't'] ⟨none, none, none⟩],
      .group .lens ['L', '2'] ⟨none, none, some 1⟩ [
        .part .refractive ['L', '2', '_', 'e', 'n', 't', 'r', 'a', 'n', 'c', 'e'] ⟨none, none, none⟩,
        .part .refractive ['L', '2', '_', 'e', 'x', 'i', 't'] ⟨none, none, none⟩],
      .group .lens ['L', '3'] ⟨none, none, some 1⟩ [
        .part .refractive ['L', '3', '_', 'e', 'n', 't', 'r', 'a', 'n', 'c', 'e'] ⟨none, none, none⟩,
        .part .refractive ['L', '3', '_', 'e', 'x', 'i', 't'] ⟨none, none, none⟩],
      .part .detector ['D', 'e', 't', 'e', 'c', 't', 'o', 'r'] ⟨none, none, none⟩]]

/-- Calypso.yaml -/
def shape_Calypso : Shape :=
  .group .compound ['C', 'a', 'l', 'y', 'p', 's', 'o'] ⟨some 0, none, some 0⟩ [
    .part .baffle ['B', 'a', 'f', 'f', 'l', 'e', '_', 'M', '2', 'c'] ⟨none, none, none⟩,
    .part .baffle ['B', 'a', 'f', 'f', 'l', 'e', '_', 'M', '1'] ⟨none, none, none⟩,
    .part .mirror ['M', '1'] ⟨none, none, none⟩,
    .part .baffle ['B', 'a', 'f', 'f', 'l', 'e', '_', 'M', '2', 'a'] ⟨none, none, none⟩,
    .part .baffle ['B', 'a', 'f', 'f', 'l', 'e', '_', 'M', '2', 'b'] ⟨none, none, none⟩,
    .part .mirror ['M', '2'] ⟨none, none, none⟩,
    .part .detector ['D', 'e', 't', 'e', 'c', 't', 'o', 'r'] ⟨none, none, none⟩]

/-- DECam.yaml -/
def shape_DECam : Shape :=
  .group .compound ['B', 'l', 'a', 'n', 'c', 'o', 'D', 'E', 'C', 'a', 'm'] ⟨some 0, none, some 0⟩ [
    .part .baffle ['E', 'N', 'D', 'C', 'A', 'P', '_', 'T', 'O', 'P'] ⟨none, none, none⟩,
    .part .baffle ['E', 'N', 'D', 'C', 'A', 'P', '_', 'B', 'O', 'T', 'T', 'O', 'M'] ⟨none, none, none⟩,
    .part .baffle ['F', 'I', 'L', 'T', 'E', 'R', '_', 'O', 'B', 'S', 'T', 'R', 'U', 'C', 'T', 'I', 'O', 'N'] ⟨none, none, none⟩,
    .part .baffle ['S', 'P', 'I', 'D', 'E', 'R'] ⟨none, none, none⟩,
    .part .baffle ['C', 'A', 'G', 'E', '_', 'M', 'I', 'D'] ⟨none, none, none⟩,
    .part .baffle ['C', 'A', 'G', 'E', '_', 'B', 'O', 'T'] ⟨none, none, none⟩,
    .part .baffle ['S', 'H', 'R', 'O', 'U', 'D'] ⟨none, none, none⟩,
    .part .baffle ['C', 'H', 'I', 'M', 'N', 'E', 'Y', '_', 'A'] ⟨none, none, none⟩,
    .part .baffle ['C', 'H', 'I', 'M', 'N', 'E', 'Y', '_', 'B'] ⟨none, none, none⟩,
    .part .baffle ['C', 'H', 'I', 'M', 'N', 'E', 'Y', '_', 'C'] ⟨none, none, none⟩,
    .part .baffle ['M', 'A', 'S', 'K'] ⟨none, none, none⟩,
    .part .baffle ['C', 'H', 'I', 'M', 'N', 'E', 'Y', '_', 'D'] ⟨none, none, none⟩,
    .part .mirror ['P', 'M'] ⟨none, none, none⟩,
    .part .baffle ['C', 'H', 'I', 'M', 'N', 'E', 'Y', '_', 'D', '_', '2'] ⟨none, none, none⟩,
    .part .baffle ['M', 'A', 'S', 'K', '_', '2'] ⟨none, none, none⟩,
    .part .baffle ['C', 'H', 'I', 'M', 'N', 'E', 'Y', '_', 'C', '_', '2'] ⟨none, none, none⟩,
    .part .baffle ['C', 'H', 'I', 'M', 'N', 'E', 'Y', '_', 'B', '_', '2'] ⟨none, none, none⟩,
    .part .baffle ['C', 'H', 'I', 'M', 'N', 'E', 'Y', '_', 'A', '_', '2'] ⟨none, none, none⟩,
    .group .compound ['D', 'E', 'C', 'a', 'm'] ⟨none, none, none⟩ [
      .group .lens ['C', '1'] ⟨none, none, some 1⟩ [
        .part .refractive ['C', '1', '_', 'e', 'n', 't', 'r', 'a', 'n', 'c', 'e'] ⟨none, none, none⟩,
        .part .refractive ['C', '1', '_', 'e', 'x', 'i', 't'] ⟨none, none, none⟩],
      .group .lens ['C', '2'] ⟨none, none, some 1⟩ [
        .part .refractive ['C', '2', '_', 'e', 'n', 't', 'r', 'a', 'n', 'c', 'e'] ⟨none, none, none⟩,
        .part .refractive ['C', '2', '_', 'e', 'x', 'i', 't'] ⟨none, none, none⟩],
      .group .lens ['C', '3'] ⟨none, none, some 1⟩ [
        .part .refractive ['C', '3', '_', 'e', 'n', 't', 'r', 'a', 'n', 'c', 'e'] ⟨none, none, none⟩,
        .part .refractive ['C', '3', '_', 'e', 'x', 'i', 't'] ⟨none, none, none⟩],
      .group .lens ['F', 'i', 'l', 't', 'e', 'r'] ⟨none, none, some 1⟩ [
        .part .refractive ['F', 'i', 'l', 't', 'e', 'r', '_', 'e', 'n', 't', 'r', 'a', 'n', 'c', 'e'] ⟨none, none, none⟩,
        .part .refractive ['F', 'i', 'l', 't', 'e', 'r', '_', 'e', 'x', 'i', 't'] ⟨none, none, none⟩],
      .group .lens ['C', '4'] ⟨none, none, some 1⟩ [
        .part .refractive ['C', '4', '_', 'e', 'n', 't', 'r', 'a', 'n', 'c', 'e'] ⟨none, none, none⟩,
        .part .refractive ['C', '4', '_', 'e', 'x', 'i', 't'] ⟨none, none, none⟩],
      .group .lens ['C', '5'] ⟨none, none, some 1⟩ [
        .part .refractive ['C', '5', '_', 'e', 'n', 't', 'r', 'a', 'n', 'c', 'e'] ⟨none, none, none⟩,
        .part .refractive ['C', '5', '_', 'e', 'x', 'i', 't'] ⟨none, none, none⟩],
      .part .detector ['D'] ⟨none, none, none⟩]]

/-- DESI.yaml -/
def shape_DESI : Shape :=
  .group .compound ['D', 'E', 'S', 'I'] ⟨some 0, none, some 0⟩ [
    .part .baffle ['T', 'o', 'p', 'C', 'a', 'g', 'e'] ⟨none, none, none⟩,
    .part .baffle ['W', 'a', 'r', 't', 'F', 'r', 'o', 'n', 't'] ⟨none, none, none⟩,
    .part .baffle ['W', 'a', 'r', 't', 'B', 'a', 'c', 'k'] ⟨none, none, none⟩,
    .part .baffle ['O', 'u', 't', 'e', 'r', 'R', 'i', 'n', 'g', 'V', 'a', 'n', 'e', 's'] ⟨none, none, none⟩,
    .part .baffle ['B', 'o', 't', 't', 'o', 'm', 'C', 'a', 'g', 'e'] ⟨none, none, none⟩,
    .part .baffle ['M', 'i', 'r', 'r', 'o', 'r', 'M', 'a', 's', 'k'] ⟨none, none, none⟩,
    .part .mirror ['M', '1'] ⟨none, none, none⟩,
    .group .compound ['H', 'e', 'x', 'a', 'p', 'o', 'd'] ⟨none, none, none⟩ [
      .group .compound ['C', 'o', 'r', 'r', 'e', 'c', 't', 'o', 'r'] ⟨none, none, none⟩ [
        .part .baffle ['B', '1'] ⟨none, none, none⟩,
        .group .lens ['C', '1'] ⟨none, none, some 1⟩ [
          .part .refractive ['C', '1', '_', '1'] ⟨none, none, none⟩,
          .part .refractive ['C', '1', '_', '2'] ⟨none, none, none⟩],
        .part .baffle ['B', '2'] ⟨none, none, none⟩,
        .part .baffle ['B', '3'] ⟨none, none, none⟩,
        .part .baffle ['B', '4'] ⟨none, none, none⟩,
        .group .lens ['C', '2'] ⟨none, none, some 2⟩ [
          .part .refractive ['C', '2', '_', '1'] ⟨none, none, none⟩,
          .part .refractive ['C', '2', '_', '2'] ⟨none, none, none⟩],
        .part .baffle ['B', '5'] ⟨none, none, none⟩,
        .part .baffle ['B', '6'] ⟨none, none, none⟩,
        .group .compound ['A', 'D', 'C', '1', 'r', 'o', 't', 'a', 't', 'o', 'r'] ⟨none, none, none⟩ [
          .group .lens ['A', 'D', 'C', '1'] ⟨none, none, some 3⟩ [
            .part .refractive ['A', 'D', 'C', '1', '_', '1'] ⟨none, none, none⟩,
            .part .refractive ['A', 'D', 'C', '1', '_', '2'] ⟨none, none, none⟩]],
        .part .baffle ['B', '7'] ⟨none, none, none⟩,
        .group .compound ['A', 'D', 'C', '2', 'r', 'o', 't', 'a', 't', 'o', 'r'] ⟨none, none, none⟩ [
          .group .lens ['A', 'D', 'C', '2'] ⟨none, none, some 4⟩ [
            .part .refractive ['A', 'D', 'C', '2', '_', '1'] ⟨none, none, none⟩,
            .part .refractive ['A', 'D', 'C', '2', '_', '2'] ⟨none, none, none⟩]],
        .part .baffle ['B', '8'] ⟨none, none, none⟩,
        .part .baffle ['B', '9'] ⟨none, none, none⟩,
        .group .lens ['C', '3'] ⟨none, none, some 5⟩ [
          .part .refractive ['C', '3', '_', '1'] ⟨none, none, none⟩,
          .part .refractive ['C', '3', '_', '2'] ⟨none, none, none⟩],
        .part .baffle ['B', '1', '0'] ⟨none, none, none⟩,
        .part .baffle ['B', '1', '1'] ⟨none, none, none⟩,
        .part .baffle ['B', '1', '2'] ⟨none, none, none⟩,
        .part .baffle ['B', '1', '3'] ⟨none, none, none⟩,
        .part .baffle ['B', '1', '4'] ⟨none, none, none⟩,
        .group .lens ['C', '4'] ⟨none, none, some 5⟩ [
          .part .refractive ['C', '4', '_', '1'] ⟨none, none, none⟩,
          .part .refractive ['C', '4', '_', '2'] ⟨none, none, none⟩],
        .part .baffle ['B', '1', '5'] ⟨none, none, none⟩,
        .part .detector ['F', 'o', 'c', 'a', 'l', 'P', 'l', 'a', 'n', 'e'] ⟨none, none, none⟩]]]

/-- HSC.yaml -/
def shape_HSC : Shape :=
  .group .compound ['S', 'u', 'b', 'a', 'r', 'u', 'H', 'S', 'C'] ⟨some 0, none, some 0⟩ [
    .part .baffle ['P', 'O', 'P', 'T', '2'] ⟨none, none, none⟩,
    .part .baffle ['F', 'E', 'U'] ⟨none, none, none⟩,
    .part .baffle ['T', 'o', 'p', 'R', 'i', 'n', 'g'] ⟨none, none, none⟩,
    .part .baffle ['B', 'o', 't', 't', 'o', 'm', 'R', 'i', 'n', 'g'] ⟨none, none, none⟩,
    .part .baffle ['T', 'e', 'r', 't', 'i', 'a', 'r', 'y', 'S', 'p', 'i', 'd', 'e', 'r', 'F', 'i', 'r', 's', 't', 'P', 'a', 's', 's'] ⟨none, none, none⟩,
    .part .mirror ['P', 'M'] ⟨none, none, none⟩,
    .part .baffle ['T', 'e', 'r', 't', 'i', 'a', 'r', 'y', 'S', 'p', 'i', 'd', 'e', 'r', 'S', 'e', 'c', 'o', 'n', 'd', 'P', 'a', 's', 's'] ⟨none, none, none⟩,
    .group .compound ['H', 'S', 'C'] ⟨none, none, none⟩ [
      .group .compound ['W', 'F', 'C'] ⟨none, none, none⟩ [
        .group .lens ['G', '1'] ⟨none, none, some 1⟩ [
          .part .refractive ['G', '1', '_', 'e', 'n', 't', 'r', 'a', 'n', 'c', 'e'] ⟨none, none, none⟩,
          .part .refractive ['G', '1', '_', 'e', 'x', 'i', 't'] ⟨none, none, none⟩],
        .group .lens ['G', '2'] ⟨none, none, some 2⟩ [
          .part .refractive ['G', '2', '_', 'e', 'n', 't', 'r', 'a', 'n', 'c', 'e'] ⟨none, none, none⟩,
          .part .refractive ['G', '2', '_', 'e', 'x', 'i', 't'] ⟨none, none, none⟩],
        .group .compound ['A', 'D', 'C'] ⟨none, none, none⟩ [
          .group .lens ['A', 'D', 'C', '1'] ⟨none, none, some 2⟩ [
            .part .refractive ['A', 'D', 'C', '1', '_', 'e', 'n', 't', 'r', 'a', 'n', 'c', 'e'] ⟨none, none, none⟩,
            .part .refractive ['A', 'D', 'C', '1', '_', 'e', 'x', 'i', 't'] ⟨none, none, none⟩],
          .group .lens ['A', 'D', 'C', '2'] ⟨none, none, some 3⟩ [
            .part .refractive ['A', 'D', 'C', '2', '_', 'e', 'n', 't', 'r', 'a', 'n', 'c', 'e'] ⟨none, none, none⟩,
            .part .refractive ['A', 'D', 'C', '2', '_', 'e', 'x', 'i', 't'] ⟨none, none, none⟩]],
        .group .lens ['G', '3'] ⟨none, none, some 3⟩ [
          .part .refractive ['G', '3', '_', 'e', 'n', 't', 'r', 'a', 'n', 'c', 'e'] ⟨none, none, none⟩,
          .part .refractive ['G', '3', '_', 'e', 'x', 'i', 't'] ⟨none, none, none⟩],
        .group .lens ['G', '4'] ⟨none, none, some 2⟩ [
          .part .refractive ['G', '4', '_', 'e', 'n', 't', 'r', 'a', 'n', 'c', 'e'] ⟨none, none, none⟩,
          .part .refractive ['G', '4', '_', 'e', 'x', 'i', 't'] ⟨none, none, none⟩],
        .group .lens ['G', '5'] ⟨none, none, some 1⟩ [
          .part .refractive ['G', '5', '_', 'e', 'n', 't', 'r', 'a', 'n', 'c', 'e'] ⟨none, none, none⟩,
          .part .refractive ['G', '5', '_', 'e', 'x', 'i', 't'] ⟨none, none, none⟩]],
      .group .compound ['C', 'A', 'M'] ⟨none, none, none⟩ [
        .group .lens ['F'] ⟨none, none, some 1⟩ [
          .part .refractive ['F', '_', 'e', 'n', 't', 'r', 'a', 'n', 'c', 'e'] ⟨none, none, none⟩,
          .part .refractive ['F', '_', 'e', 'x', 'i', 't'] ⟨none, none, none⟩],
        .group .lens ['W'] ⟨none, none, some 1⟩ [
          .part .refractive ['W', '_', 'e', 'n', 't', 'r', 'a', 'n', 'c', 'e'] ⟨none, none, none⟩,
          .part .refractive ['W', '_', 'e', 'x', 'i', 't'] ⟨none, none, none⟩],
        .part .detector ['D'] ⟨none, none, none⟩]]]

/-- HSC_no_obsc.yaml -/
def shape_HSC_no_obsc : Shape :=
  .group .compound ['S', 'u', 'b', 'a', 'r', 'u', 'H', 'S', 'C'] ⟨some 0, none, some 0⟩ [
    .part .mirror ['P', 'M'] ⟨none, none, none⟩,
    .group .compound ['H', 'S', 'C'] ⟨none, none, none⟩ [
      .group .lens ['G', '1'] ⟨none, none, some 1⟩ [
        .part .refractive ['G', '1', '_', 'e', 'n', 't', 'r', 'a', 'n', 'c', 'e'] ⟨none, none, none⟩,
        .part .refractive ['G', '1', '_', 'e', 'x', 'i', 't'] ⟨none, none, none⟩],
      .group .lens ['G', '2'] ⟨none, none, some 2⟩ [
        .part .refractive ['G', '2', '_', 'e', 'n', 't', 'r', 'a', 'n', 'c', 'e'] ⟨none, none, none⟩,
        .part .refractive ['G', '2', '_', 'e', 'x', 'i', 't'] ⟨none, none, none⟩],
      .group .compound ['A', 'D', 'C'] ⟨none, none, none⟩ [
        .group .lens ['A', 'D', 'C', '1'] ⟨none, none, some 2⟩ [
          .part .refractive ['A', 'D', 'C', '1', '_', 'e', 'n', 't', 'r', 'a', 'n', 'c', 'e'] ⟨none, none, none⟩,
          .part .refractive ['A', 'D', 'C', '1', '_', 'e', 'x', 'i', 't'] ⟨none, none, none⟩],
        .group .lens ['A', 'D', 'C', '2'] ⟨none, none, some 3⟩ [
          .part .refractive ['A', 'D', 'C', '2', '_', 'e', 'n', 't', 'r', 'a', 'n', 'c', 'e'] ⟨none, none, none⟩,
          .part .refractive ['A', 'D', 'C', '2', '_', 'e', 'x', 'i', 't'] ⟨none, none, none⟩]],
      .group .lens ['G', '3'] ⟨none, none, some 3⟩ [
        .part .refractive ['G', '3', '_', 'e', 'n', 't', 'r', 'a', 'n', 'c', 'e'] ⟨none, none, none⟩,
        .part .refractive ['G', '3', '_', 'e', 'x', 'i', 't'] ⟨none, none, none⟩],
      .group .lens ['G', '4'] ⟨none, none, some 2⟩ [
        .part .refractive ['G', '4', '_', 'e', 'n', 't', 'r', 'a', 'n', 'c', 'e'] ⟨none, none, none⟩,
        .part .refractive ['G', '4', '_', 'e', 'x', 'i', 't'] ⟨none, none, none⟩],
      .group .lens ['G', '5'] ⟨none, none, some 1⟩ [
        .part .refractive ['G', '5', '_', 'e', 'n', 't', 'r', 'a', 'n', 'c', 'e'] ⟨none, none, none⟩,
        .part .refractive ['G', '5', '_', 'e', 'x', 'i', 't'] ⟨none, none, none⟩],
      .group .lens ['F'] ⟨none, none, some 1⟩ [
        .part .refractive ['F', '_', 'e', 'n', 't', 'r', 'a', 'n', 'c', 'e'] ⟨none, none, none⟩,
        .part .refractive ['F', '_', 'e', 'x', 'i', 't'] ⟨none, none, none⟩],
      .group .lens ['W'] ⟨none, none, some 1⟩ [
        .part .refractive ['W', '_', 'e', 'n', 't', 'r', 'a', 'n', 'c', 'e'] ⟨none, none, none⟩,
        .part .refractive ['W', '_', 'e', 'x', 'i', 't'] ⟨none, none, none⟩],
      .part .detector ['D'] ⟨none, none, none⟩]]

/-- HSC_old.yaml -/
def shape_HSC_old : Shape :=
  .group .compound ['S', 'u', 'b', 'a', 'r', 'u', 'H', 'S', 'C'] ⟨some 0, none, some 0⟩ [
    .part .baffle ['T', 'o', 'p', 'R', 'i', 'n', 'g', 'S', 't', 'r', 'u', 't', 's', 'A', 'n', 'd', 'C', 'a', 'm', 'e', 'r', 'a'] ⟨none, none, none⟩,
    .part .baffle ['B', 'o', 't', 't', 'o', 'm', 'R', 'i', 'n', 'g', 'S', 't', 'r', 'u', 't', 's', 'F', 'i', 'r', 's', 't', 'P', 'a', 's', 's'] ⟨none, none, none⟩,
    .part .mirror ['P', 'M'] ⟨none, none, none⟩,
    .part .baffle ['B', 'o', 't', 't', 'o', 'm', 'R', 'i', 'n', 'g', 'S', 't', 'r', 'u', 't', 's', 'S', 'e', 'c', 'o', 'n', 'd', 'P', 'a', 's', 's'] ⟨none, none, none⟩,
    .group .compound ['H', 'S', 'C'] ⟨none, none, none⟩ [
      .group .lens ['G', '1'] ⟨none, none, some 1⟩ [
        .part .refractive ['G', '1', '_', 'e', 'n', 't', 'r', 'a', 'n', 'c', 'e'] ⟨none, none, none⟩,
        .part .refractive ['G', '1', '_', 'e', 'x', 'i', 't'] ⟨none, none, none⟩],
      .group .lens ['G', '2'] ⟨none, none, some 2⟩ [
        .part .refractive ['G', '2', '_', 'e', 'n', 't', 'r', 'a', 'n', 'c', 'e'] ⟨none, none, none⟩,
        .part .refractive ['G', '2', '_', 'e', 'x', 'i', 't'] ⟨none, none, none⟩],
      .group .compound ['A', 'D', 'C'] ⟨none, none, none⟩ [
        .group .lens ['A', 'D', 'C', '1'] ⟨none, none, some 2⟩ [
          .part .refractive ['A', 'D', 'C', '1', '_', 'e', 'n', 't', 'r', 'a', 'n', 'c', 'e'] ⟨none, none, none⟩,
          .part .refractive ['A', 'D', 'C', '1', '_', 'e', 'x', 'i', 't'] ⟨none, none, none⟩],
        .group .lens ['A', 'D', 'C', '2'] ⟨none, none, some 3⟩ [
          .part .refractive ['A', 'D', 'C', '2', '_', 'e', 'n', 't', 'r', 'a', 'n', 'c', 'e'] ⟨none, none, none⟩,
          .part .refractive ['A', 'D', 'C', '2', '_', 'e', 'x', 'i', 't'] ⟨none, none, none⟩]],
      .group .lens ['G', '3'] ⟨none, none, some 3⟩ [
        .part .refractive ['G', '3', '_', 'e', 'n', 't', 'r', 'a', 'n', 'c', 'e'] ⟨none, none, none⟩,
        .part .refractive ['G', '3', '_', 'e', 'x', 'i', 't'] ⟨none, none, none⟩],
      .group .lens ['G', '4'] ⟨none, none, some 2⟩ [
        .part .refractive ['G', '4', '_', 'e', 'n', 't', 'r', 'a', 'n', 'c', 'e'] ⟨none, none, none⟩,
        .part .refractive ['G', '4', '_', 'e', 'x', 'i', 't'] ⟨none, none, none⟩],
      .group .lens ['G', '5'] ⟨none, none, some 1⟩ [
        .part .refractive ['G', '5', '_', 'e', 'n', 't', 'r', 'a', 'n', 'c', 'e'] ⟨none, none, none⟩,
        .part .refractive ['G', '5', '_', 'e', 'x', 'i', 't'] ⟨none, none, none⟩],
      .group .lens ['F'] ⟨none, none, some 1⟩ [
        .part .refractive ['F', '_', 'e', 'n', 't', 'r', 'a', 'n', 'c', 'e'] ⟨none, none, none⟩,
        .part .refractive ['F', '_', 'e', 'x', 'i', 't'] ⟨none, none, none⟩],
      .group .lens ['W'] ⟨none, none, some 1⟩ [
        .part .refractive ['W', '_', 'e', 'n', 't', 'r', 'a', 'n', 'c', 'e'] ⟨none, none, none⟩,
        .part .refractive ['W', '_', 'e', 'x', 'i', 't'] ⟨none, none, none⟩],
      .part .detector ['D'] ⟨none, none, none⟩]]

/-- CBP.yaml -/
def shape_CBP : Shape :=
  .group .compound ['C', 'P', 'B'] ⟨some 0, none, some 0⟩ [
    .group .lens ['S', 'c', 'h', 'm', 'i', 'd', 't', '_', 'p', 'l', 'a', 't', 'e'] ⟨none, none, some 1⟩ [
      .part .refractive ['S', 'c', 'h', 'm', 'i', 'd', 't', '_', 'p', 'l', 'a', 't', 'e', '_', 'e', 'n', 't', 'r', 'a', 'n', 'c', 'e'] ⟨none, none, none⟩,
      .part .refractive ['S', 'c', 'h', 'm', 'i', 'd', 't', '_', 'p', 'l', 'a', 't', 'e', '_', 'e', 'x', 'i', 't'] ⟨none, none, none⟩],
    .part .baffle ['s', 't', 'o', 'p'] ⟨none, none, none⟩,
    .part .mirror ['t', 'u', 'r', 'n', 'i', 'n', 'g', '_', 'f', 'l', 'a', 't'] ⟨none, none, none⟩,
    .group .compound ['C', 'a', 's', 's', 'e', 'g', 'r', 'a', 'i', 'n'] ⟨none, none, none⟩ [
      .part .mirror ['P', 'M'] ⟨none, none, none⟩,
      .part .baffle ['f', 'l', 'a', 't', '_', 'h', 'o', 'l', 'e'] ⟨none, none, none⟩,
      .group .lens ['L', '1'] ⟨none, none, some 1⟩ [
        .part .refractive ['L', '1', '_', 'e', 'n', 't', 'r', 'a', 'n', 'c', 'e'] ⟨none, none, none⟩,
        .part .refractive ['L', '1', '_', 'e', 'x', 'i', 't'] ⟨none, none, none⟩],
      .group .lens ['L', '2'] ⟨none, none, some 2⟩ [
        .part .refractive ['L', '2', '_', 'e', 'n', 't', 'r', 'a', 'n', 'c', 'e'] ⟨none, none, none⟩,
        .part .refractive ['L', '2', '_', 'e', 'x', 'i', 't'] ⟨none, none, none⟩],
      .group .lens ['L', '3'] ⟨none, none, some 1⟩ [
        .part .refractive ['L', '3', '_', 'e', 'n', 't', 'r', 'a', 'n', 'c', 'e'] ⟨none, none, none⟩,
        .part .refractive ['L', '3', '_', 'e', 'x', 'i', 't'] ⟨none, none, none⟩],
      .part .detector ['D', 'e', 't', 'e', 'c', 't', 'o', 'r'] ⟨none, none, none⟩]]

/-- ComCam_g.yaml, ComCam_i.yaml, ComCam_r.yaml, ComCam_u.yaml, ComCam_y.yaml, ComCam_z.yaml -/
def shape_ComCam_g : Shape :=
  .group .compound ['R', 'u', 'b', 'i', 'n', 'C', 'o', 'm', 'C', 'a', 'm'] ⟨some 0, none, some 0⟩ [
    .part .mirror ['M', '1'] ⟨none, none, none⟩,
    .part .mirror ['M', '2'] ⟨none, none, none⟩,
    .part .mirror ['M', '3'] ⟨none, none, none⟩,
    .group .compound ['C', 'o', 'm', 'C', 'a', 'm'] ⟨none, none, none⟩ [
      .group .lens ['L', '1'] ⟨none, none, some 1⟩ [
        .part .refractive ['L', '1', '_', 'e', 'n', 't', 'r', 'a', 'n', 'c', 'e'] ⟨none, none, none⟩,
        .part .refractive ['L', '1', '_', 'e', 'x', 'i', 't'] ⟨none, none, none⟩],
      .group .lens ['L', '2'] ⟨none, none, some 1⟩ [
        .part .refractive ['L', '2', '_', 'e', 'n', 't', 'r', 'a', 'n', 'c', 'e'] ⟨none, none, none⟩,
        .part .refractive ['L', '2', '_', 'e', 'x', 'i', 't'] ⟨none, none, none⟩],
      .group .lens ['F', 'i', 'l', 't', 'e', 'r'] ⟨none, none, some 1⟩ [
        .part .refractive ['F', 'i', 'l', 't', 'e', 'r', '_', 'e', 'n', 't', 'r', 'a', 'n', 'c', 'e'] ⟨none, none, none⟩,
        .part .refractive ['F', 'i', 'l', 't', 'e', 'r', '_', 'e', 'x', 'i', 't'] ⟨none, none, none⟩],
      .group .lens ['L', '3'] ⟨none, none, some 1⟩ [
        .part .refractive ['L', '3', '_', 'e', 'n', 't', 'r', 'a', 'n', 'c', 'e'] ⟨none, none, none⟩,
        .part .refractive ['L', '3', '_', 'e', 'x', 'i', 't'] ⟨none, none, none⟩],
      .part .detector ['D', 'e', 't', 'e', 'c', 't', 'o', 'r'] ⟨none, none, none⟩]]

/-- LSST_g.yaml, LSST_g_500.yaml, LSST_i.yaml, LSST_r.yaml, LSST_r_align_holes.yaml, LSST_r_noobsc.yaml, LSST_u.yaml, LSST_y.yaml, LSST_z.yaml, Rubin_v3.12_g.yaml, Rubin_v3.12_i.yaml, Rubin_v3.12_r.yaml, Rubin_v3.12_u.yaml, Rubin_v3.12_y.yaml, Rubin_v3.12_z.yaml, Rubin_v3.14_g.yaml, Rubin_v3.14_i.yaml, Rubin_v3.14_r.yaml, Rubin_v3.14_u.yaml, Rubin_v3.14_y.yaml, Rubin_v3.14_z.yaml -/
def shape_LSST_g : Shape :=
  .group .compound ['L', 'S', 'S', 'T'] ⟨some 0, none, some 0⟩ [
    .part .mirror ['M', '1'] ⟨none, none, none⟩,
    .part .mirror ['M', '2'] ⟨none, none, none⟩,
    .part .mirror ['M', '3'] ⟨none, none, none⟩,
    .group .compound ['L', 'S', 'S', 'T', 'C', 'a', 'm', 'e', 'r', 'a'] ⟨none, none, none⟩ [
      .group .lens ['L', '1'] ⟨none, none, some 1⟩ [
        .part .refractive ['L', '1', '_', 'e', 'n', 't', 'r', 'a', 'n', 'c', 'e'] ⟨none, none, none⟩,
        .part .refractive ['L', '1', '_', 'e', 'x', 'i', 't'] ⟨none, none, none⟩],
      .group .lens ['L', '2'] ⟨none, none, some 1⟩ [
        .part .refractive ['L', '2', '_', 'e', 'n', 't', 'r', 'a', 'n', 'c', 'e'] ⟨none, none, none⟩,
        .part .refractive ['L', '2', '_', 'e', 'x', 'i', 't'] ⟨none, none, none⟩],
      .group .lens ['F', 'i', 'l', 't', 'e', 'r'] ⟨none, none, some 1⟩ [
        .part .refractive ['F', 'i', 'l', 't', 'e', 'r', '_', 'e', 'n', 't', 'r', 'a', 'n', 'c', 'e'] ⟨none, none, none⟩,
        .part .refractive ['F', 'i', 'l', 't', 'e', 'r', '_', 'e', 'x', 'i', 't'] ⟨none, none, none⟩],
      .group .lens ['L', '3'] ⟨none, none, some 1⟩ [
        .part .refractive ['L', '3', '_', 'e', 'n', 't', 'r', 'a', 'n', 'c', 'e'] ⟨none, none, none⟩,
        .part .refractive ['L', '3', '_', 'e', 'x', 'i', 't'] ⟨none, none, none⟩],
      .part .detector ['D', 'e', 't', 'e', 'c', 't', 'o', 'r'] ⟨none, none, none⟩]]

/-- LSST_r_baffles.yaml -/
def shape_LSST_r_baffles : Shape :=
  .group .compound ['L', 'S', 'S', 'T'] ⟨some 0, none, some 0⟩ [
    .part .baffle ['C', 'e', 'n', 't', 'e', 'r', 'C', 'a', 'p'] ⟨none, none, none⟩,
    .part .baffle ['C', 'e', 'n', 't', 'e', 'r', 'P', 'l', 'a', 't', 'e', 'A', 'n', 'd', 'S', 'p', 'i', 'd', 'e', 'r', 'T', 'o', 'p'] ⟨none, none, none⟩,
    .part .baffle ['U', 'p', 'p', 'e', 'r', 'T', 'E', 'A', 'B', 'a', 'f', 'f', 'l', 'e', 'A', 'n', 'd', 'S', 'p', 'i', 'd', 'e', 'r', 'B', 'o', 't', 't', 'o', 'm'] ⟨none, none, none⟩,
    .part .baffle ['L', 'o', 'w', 'e', 'r', 'T', 'E', 'A', 'B', 'a', 'f', 'f', 'l', 'e', 'A', 'n', 'd', 'M', '2', 'B', 'a', 'f', 'f', 'l', 'e', 'B', 'o', 't', 't', 'o', 'm'] ⟨none, none, none⟩,
    .part .baffle ['M', '1', 'M', '3', 'C', 'o', 'v', 'e', 'r'] ⟨none, none, none⟩,
    .part .baffle ['M', '1', 'C', 'a', 'B', 'a', 'f', 'f', 'l', 'e'] ⟨none, none, none⟩,
    .part .mirror ['M', '1'] ⟨none, none, none⟩,
    .part .baffle ['M', '1', 'C', 'a', 'B', 'a', 'f', 'f', 'l', 'e', '2'] ⟨none, none, none⟩,
    .part .baffle ['M', 'i', 'd', 'd', 'l', 'e', 'T', 'E', 'A', 'B', 'a', 'f', 'f', 'l', 'e'] ⟨none, none, none⟩,
    .part .mirror ['M', '2'] ⟨none, none, none⟩,
    .part .baffle ['M', '2', 'B', 'a', 'f', 'f', 'l', 'e', 'B', 'o', 't', 't', 'o', 'm'] ⟨none, none, none⟩,
    .part .mirror ['M', '3'] ⟨none, none, none⟩,
    .group .compound ['L', 'S', 'S', 'T', 'C', 'a', 'm', 'e', 'r', 'a'] ⟨none, none, none⟩ [
      .group .lens ['L', '1'] ⟨none, none, some 1⟩ [
        .part .refractive ['L', '1', '_', 'e', 'n', 't', 'r', 'a', 'n', 'c', 'e'] ⟨none, none, none⟩,
        .part .refractive ['L', '1', '_', 'e', 'x', 'i', 't'] ⟨none, none, none⟩],
      .group .lens ['L', '2'] ⟨none, none, some 1⟩ [
        .part .refractive ['L', '2', '_', 'e', 'n', 't', 'r', 'a', 'n', 'c', 'e'] ⟨none, none, none⟩,
        .part .refractive ['L', '2', '_', 'e', 'x', 'i', 't'] ⟨none, none, none⟩],
      .group .lens ['F', 'i', 'l', 't', 'e', 'r'] ⟨none, none, some 1⟩ [
        .part .refractive ['F', 'i', 'l', 't', 'e', 'r', '_', 'e', 'n', 't', 'r', 'a', 'n', 'c', 'e'] ⟨none, none, none⟩,
        .part .refractive ['F', 'i', 'l', 't', 'e', 'r', '_', 'e', 'x', 'i', 't'] ⟨none, none, none⟩],
      .group .lens ['L', '3'] ⟨none, none, some 1⟩ [
        .part .refractive ['L', '3', '_', 'e', 'n', 't', 'r', 'a', 'n', 'c', 'e'] ⟨none, none, none⟩,
        .part .refractive ['L', '3', '_', 'e', 'x', 'i', 't'] ⟨none, none, none⟩],
      .part .detector ['D', 'e', 't', 'e', 'c', 't', 'o', 'r'] ⟨none, none, none⟩]]

/-- PFS.yaml -/
def shape_PFS : Shape :=
  .group .compound ['P', 'F', 'S'] ⟨some 0, none, some 0⟩ [
    .group .lens ['C', 'C', 'L', '1'] ⟨none, none, some 1⟩ [
      .part .refractive ['C', 'C', 'L', '1', 'S', '1'] ⟨none, none, none⟩,
      .part .refractive ['C', 'C', 'L', '1', 'S', '2'] ⟨none, none, none⟩],
    .group .lens ['C', 'C', 'L', '2'] ⟨none, none, some 1⟩ [
      .part .refractive ['C', 'C', 'L', '2', 'S', '1'] ⟨none, none, none⟩,
      .part .refractive ['C', 'C', 'L', '2', 'S', '2'] ⟨none, none, none⟩],
    .group .compound ['M', 'i', 'r', 'r', 'o', 'r'] ⟨none, none, none⟩ [
      .part .refractive ['M', '1', 'S', '1'] ⟨some 0, some 1, none⟩,
      .part .mirror ['M', '1'] ⟨none, none, none⟩,
      .part .refractive ['M', '1', 'S', '2'] ⟨some 1, some 0, none⟩],
    .group .lens ['F', 'i', 'e', 'l', 'd', 'C', 'o', 'r', 'r', 'e', 'c', 't', 'o', 'r'] ⟨none, none, some 1⟩ [
      .part .refractive ['F', 'C', 'S', '1'] ⟨none, none, none⟩,
      .part .refractive ['F', 'C', 'S', '2'] ⟨none, none, none⟩],
    .part .detector ['D', 'e', 't', 'e', 'c', 't', 'o', 'r'] ⟨none, none, none⟩]

/-- SDSS.yaml -/
def shape_SDSS : Shape :=
  .group .compound ['S', 'D', 'S', 'S'] ⟨some 0, none, some 0⟩ [
    .part .baffle ['W', 'i', 'n', 'd', 's', 'c', 'r', 'e', 'e', 'n'] ⟨none, none, none⟩,
    .part .baffle ['M', '2', ' ', 'b', 'a', 'f', 'f', 'l', 'e', ' ', '1'] ⟨none, none, none⟩,
    .part .baffle ['M', '2', ' ', 'b', 'a', 'f', 'f', 'l', 'e', ' ', '2'] ⟨none, none, none⟩,
    .part .baffle ['C', 'o', 'n', 'i', 'c', 'a', 'l', ' ', 'b', 'a', 'f', 'f', 'l', 'e'] ⟨none, none, none⟩,
    .part .baffle ['W', 'i', 'n', 'd', 's', 'c', 'r', 'e', 'e', 'n', ' ', '2'] ⟨none, none, none⟩,
    .part .mirror ['M', '1'] ⟨none, none, none⟩,
    .part .baffle ['M', '2', ' ', 'b', 'a', 'f', 'f', 'l', 'e', ' ', '3'] ⟨none, none, none⟩,
    .part .mirror ['M', '2'] ⟨none, none, none⟩,
    .part .baffle ['C', 'o', 'n', 'i', 'c', 'a', 'l', ' ', 'b', 'a', 'f', 'f', 'l', 'e', ' ', '2'] ⟨none, none, none⟩,
    .part .baffle ['M', '1', ' ', 'b', 'a', 'f', 'f', 'l', 'e'] ⟨none, none, none⟩,
    .group .compound ['C', 'o', 'r', 'r', 'e', 'c', 't', 'o', 'r'] ⟨none, none, none⟩ [
      .group .lens ['L', '1'] ⟨none, none, some 1⟩ [
        .part .refractive ['L', '1', 'S', '1'] ⟨none, none, none⟩,
        .part .refractive ['L', '1', 'S', '2'] ⟨none, none, none⟩],
      .group .lens ['L', '2'] ⟨none, none, some 1⟩ [
        .part .refractive ['L', '2', 'S', '1'] ⟨none, none, none⟩,
        .part .refractive ['L', '2', 'S', '2'] ⟨none, none, none⟩],
      .group .lens ['L', '3'] ⟨none, none, some 1⟩ [
        .part .refractive ['L', '3', 'S', '1'] ⟨none, none, none⟩,
        .part .refractive ['L', '3', 'S', '2'] ⟨none, none, none⟩],
      .part .detector ['D', 'e', 't', 'e', 'c', 't', 'o', 'r'] ⟨none, none, none⟩]]

/-- donsoptikz1.yaml -/
def shape_donsoptikz1 : Shape :=
  .group .compound ['a', 'p', 'o', '1'] ⟨some 0, none, some 0⟩ [
    .group .lens ['L', '1'] ⟨none, none, some 1⟩ [
      .part .refractive ['L', '1', '_', 'e', 'n', 't', 'r', 'a', 'n', 'c', 'e'] ⟨none, none, none⟩,
      .part .refractive ['L', '1', '_', 'e', 'x', 'i', 't'] ⟨none, none, none⟩],
    .group .lens ['L', '2'] ⟨none, none, some 2⟩ [
      .part .refractive ['L', '2', '_', 'e', 'n', 't', 'r', 'a', 'n', 'c', 'e'] ⟨none, none, none⟩,
      .part .refractive ['L', '2', '_', 'e', 'x', 'i', 't'] ⟨none, none, none⟩],
    .group .lens ['L', '3'] ⟨none, none, some 3⟩ [
      .part .refractive ['L', '3', '_', 'e', 'n', 't', 'r', 'a', 'n', 'c', 'e'] ⟨none, none, none⟩,
      .part .refractive ['L', '3', '_', 'e', 'x', 'i', 't'] ⟨none, none, none⟩],
    .part .detector ['D', 'e', 't', 'e', 'c', 't', 'o', 'r'] ⟨none, none, none⟩]

/-- The files of /repo/batoid/data/*/*.yaml. -/
def telescopes : List (String × Shape) := [
  ("AuxTel.yaml", shape_AuxTel),
  ("Calypso.yaml", shape_Calypso),
  ("DECam.yaml", shape_DECam),
  ("DESI.yaml", shape_DESI),
  ("HSC.yaml", shape_HSC),
  ("HSC_no_obsc.yaml", shape_HSC_no_obsc),
  ("HSC_old.yaml", shape_HSC_old),
  ("CBP.yaml", shape_CBP),
  ("ComCam_g.yaml", shape_ComCam_g),
  ("ComCam_i.yaml", shape_ComCam_g),
  ("ComCam_r.yaml", shape_ComCam_g),
  ("ComCam_u.yaml", shape_ComCam_g),
  ("ComCam_y.yaml", shape_ComCam_g),
  ("ComCam_z.yaml", shape_ComCam_g),
  ("LSST_g.yaml", shape_LSST_g),
  ("LSST_g_500.yaml", shape_LSST_g),
  ("LSST_i.yaml", shape_LSST_g),
  ("LSST_r.yaml", shape_LSST_g),
  ("LSST_r_align_holes.yaml", shape_LSST_g),
  ("LSST_r_baffles.yaml", shape_LSST_r_baffles),
  ("LSST_r_noobsc.yaml", shape_LSST_g),
  ("LSST_u.yaml", shape_LSST_g),
  ("LSST_y.yaml", shape_LSST_g),
  ("LSST_z.yaml", shape_LSST_g),
  ("Rubin_v3.12_g.yaml", shape_LSST_g),
  ("Rubin_v3.12_i.yaml", shape_LSST_g),
  ("Rubin_v3.12_r.yaml", shape_LSST_g),
  ("Rubin_v3.12_u.yaml", shape_LSST_g),
  ("Rubin_v3.12_y.yaml", shape_LSST_g),
  ("Rubin_v3.12_z.yaml", shape_LSST_g),
  ("Rubin_v3.14_g.yaml", shape_LSST_g),
  ("Rubin_v3.14_i.yaml", shape_LSST_g),
  ("Rubin_v3.14_r.yaml", shape_LSST_g),
  ("Rubin_v3.14_u.yaml", shape_LSST_g),
  ("Rubin_v3.14_y.yaml", shape_LSST_g),
  ("Rubin_v3.14_z.yaml", shape_LSST_g),
  ("PFS.yaml", shape_PFS),
  ("SDSS.yaml", shape_SDSS),
  ("donsoptikz1.yaml", shape_donsoptikz1)]

end Batoid
