#!/usr/bin/env python3
"""Rewrite lean/Verif.lean so that it imports every module under lean/Verif."""
import pathlib
root = pathlib.Path(__file__).resolve().parent.parent / "lean"
mods = sorted(".".join(p.relative_to(root).with_suffix("").parts) for p in (root / "Verif").rglob("*.lean"))
(root / "Verif.lean").write_text("".join(f"import {m}\n" for m in mods))
