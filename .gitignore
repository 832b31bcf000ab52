.lake/
lean/lake-manifest.json
lean/.lake/
*.olean
__pycache__/
